import Verif.Proof.SessionWait
/-
  Session channels: assertions which do not fail.
-/
namespace Lukko
open Model Spec

/-- No extended data; the buffer hands out its contents in pieces of at most half a
window. -/
def sessCalm : SessEvent → Bool
  | .recvExt _ => false
  | .stdinReady ks => ks.all fun x => decide (x.1 + 1 ≤ RECEIVE_WINDOW / 2)
  | .ttyReady (some ks) _ => ks.all fun x => decide (x.1 + 1 ≤ RECEIVE_WINDOW / 2)
  | _ => true

theorem sconsume_ok {s : Sess} {n} (hn : n ≤ s.recvWin) : ∃ s', s.consume n = some s' ∧ RECEIVE_WINDOW / 2 ≤ s'.recvWin := by
  unfold Sess.consume
  rw [if_pos hn]
  split
  · exact ⟨_, rfl, Nat.div_le_self _ _⟩
  · exact ⟨_, rfl, by simp only; omega⟩

theorem scheduleWrite_recvWin (s : Sess) : s.scheduleWrite.recvWin = s.recvWin := by
  unfold Sess.scheduleWrite; split <;> rfl

theorem closeStdin_recvWin (s : Sess) : s.closeStdin.recvWin = s.recvWin := by
  unfold Sess.closeStdin; split <;> rfl

theorem wroteInput_recvWin (s : Sess) (pl n) : (s.wroteInput pl n).recvWin = s.recvWin := by
  unfold Sess.wroteInput; split
  · exact scheduleWrite_recvWin _
  · rfl

theorem sdata_ok {s : Sess} {c k} (hs : RECEIVE_WINDOW / 2 ≤ s.recvWin) (hn : c.length ≤ s.recvWin) :
    RECEIVE_WINDOW / 2 ≤ (Sess.ops.data s c k).1.recvWin ∧ (Sess.ops.data s c k).2 ≠ .error .ub := by
  unfold Sess.ops
  simp only
  cases s.stdinEnabled
  · exact ⟨hs, by simp⟩
  · simp only [Bool.not_true, cond_false]
    cases !s.stdin.isSome && !s.tty.isSome
    · simp only [cond_false]
      cases k with
      | wouldBlock => exact ⟨by simp only [Sess.writeInput]; rw [scheduleWrite_recvWin]; exact hs, by simp [Sess.writeInput]⟩
      | failed => exact ⟨by simp only [Sess.writeInput, Sess.emit]; rw [closeStdin_recvWin]; exact hs, by simp [Sess.writeInput]⟩
      | wrote m =>
        obtain ⟨s', h1, h2⟩ := sconsume_ok (s := s.wroteInput c (min m c.length)) (n := min m c.length)
          (by rw [wroteInput_recvWin]; omega)
        simp only [Sess.writeInput, h1]
        exact ⟨h2, by simp⟩
    · exact ⟨hs, by simp⟩

theorem sfinish_ok {s : Sess} {b : Buf} (h : RECEIVE_WINDOW / 2 ≤ s.recvWin) :
    RECEIVE_WINDOW / 2 ≤ (b.finish Sess.ops s).1.recvWin ∧ (b.finish Sess.ops s).2.2 ≠ some .ub := by
  unfold Buf.finish
  cases b.eofPending
  · exact ⟨h, by simp⟩
  · exact ⟨by simp only [cond_true, Sess.ops]; rw [closeStdin_recvWin]; exact h, by simp⟩

theorem sread_ok {ks : List (Nat × Wrote)} : ∀ {s : Sess} {b : Buf}, (∀ x ∈ ks, x.1 + 1 ≤ RECEIVE_WINDOW / 2) →
    RECEIVE_WINDOW / 2 ≤ s.recvWin →
    RECEIVE_WINDOW / 2 ≤ (b.read Sess.ops s ks).1.recvWin ∧ (b.read Sess.ops s ks).2.2 ≠ some .ub := by
  induction ks with
  | nil =>
    intro s b _ h
    unfold Buf.read
    split
    · exact sfinish_ok h
    · exact ⟨h, by simp⟩
  | cons x ks ih =>
    obtain ⟨len, k⟩ := x
    intro s b hks h
    unfold Buf.read
    split
    · exact sfinish_ok h
    · simp only
      have hlen := hks _ List.mem_cons_self
      have hd := sdata_ok (k := k) h (c := b.queue.take (len + 1)) (by simp only [List.length_take] at *; omega)
      generalize Sess.ops.data s (b.queue.take (len + 1)) k = r at *
      obtain ⟨s', res⟩ := r
      cases res with
      | error e => exact ⟨hd.1, fun hc => hd.2 (by simpa using hc)⟩
      | ok n =>
        simp only
        split
        · exact ⟨hd.1, by simp⟩
        · exact ih (fun x hx => hks x (List.mem_cons_of_mem _ hx)) hd.1

/-! ## Requests -/

section
variable {cfg : SessCfg} {y : SessCh}

/-- Stopped at most by closing the connection. -/
def NoAssert (st : Option SessStop) : Prop := st = none ∨ st = some .connection

theorem NoAssert.ub {st} (h : NoAssert st) : st ≠ some .ub := by rcases h with h | h <;> simp [h]

theorem NoAssert.refuse (h : NoAssert y.stop) (v text) : NoAssert (y.refuse v text).stop := by
  unfold SessCh.refuse
  cases v <;> exact h

theorem NoAssert.lateRequest (h : NoAssert y.stop) (name data ok) : NoAssert (y.lateRequest name data ok).stop := by
  unfold SessCh.lateRequest
  split
  · cases !y.s.tty.isSome
    · simp only [cond_false]
      split
      · exact .inr rfl
      · cases ok
        · exact .inr rfl
        · exact h
    · exact h
  · exact h

theorem NoAssert.exec (h : NoAssert y.stop) (cmd) : NoAssert (y.exec cfg cmd).stop := by
  unfold SessCh.exec
  split
  · cases cfg.exec
    · exact h.refuse _ _
    · exact h
  · cases cfg.exec
    · simp only [cond_false]
      split
      · exact h
      · exact h.refuse _ _
      · unfold SessCh.execOther SessCh.execGit
        split
        · split <;> exact h
        · split
          · split <;> exact h
          · exact h.refuse _ _
    · exact h

theorem NoAssert.request (h : NoAssert y.stop) (name data ok) : NoAssert (y.request cfg name data ok).stop := by
  unfold SessCh.request
  cases y.s.child.isSome
  · simp only [cond_false]
    split
    · unfold SessCh.execRequest
      split
      · exact .inr rfl
      · split
        · exact h.refuse _ _
        · exact h.exec _
    · split
      · exact h.exec _
      · split
        · unfold SessCh.subsystem
          split
          · exact .inr rfl
          · split
            · cases !cfg.sftp
              · cases y.s.tty.isSome <;> exact h
              · exact h
            · exact h
        · split
          · unfold SessCh.ptyReq
            cases !cfg.exec || y.s.restr.noTerminal
            · simp only [cond_false]
              split
              · exact .inr rfl
              · cases !ok
                · simp only [cond_false]
                  split
                  · exact .inr rfl
                  · exact h
                · exact .inr rfl
            · exact h
          · split
            · unfold SessCh.envRequest
              cases !cfg.exec
              · simp only [cond_false]
                split
                · exact .inr rfl
                · split
                  · exact .inr rfl
                  · exact h
              · exact h
            · split <;> exact h
  · exact h.lateRequest _ _ _

theorem preparePipes_some {nd} {s : Sess} (h : Fresh s) : ∃ s', s.preparePipes nd = some s' := by
  unfold Sess.preparePipes
  rw [h.stdin, h.stdout, h.stderr]
  exact ⟨_, rfl⟩

theorem NoAssert.launch (h : NoAssert y.stop) (id program original terminal r) :
    NoAssert (y.launch cfg id program original terminal r).stop := by
  unfold SessCh.launch
  split
  · exact NoAssert.refuse (y := ⟨(y.finish id).s.maybeScheduleRead, y.buf, y.stop⟩) h _ _
  · exact h

theorem enqueued_ub (h : y.stop = none) (hord : Ord cfg y.s) (id r) : (y.enqueued cfg id r).stop ≠ some .ub := by
  have hst : NoAssert y.stop := .inl h
  unfold SessCh.enqueued
  have key : ∀ t, y.s.tasks.lookup id = some t → willStart (id, t) = true → Unused y.s ∧ (isService t = true → y.s.tty = none) := by
    intro t ht hw
    have hmem : (id, t) ∈ y.s.tasks := by
      obtain ⟨a, b, h1, _⟩ := List.lookup_eq_some_iff.mp ht
      rw [h1]; simp
    refine ⟨?_, hord.serv _ hmem⟩
    rcases hord.will with h1 | h1
    · have := h1 _ hmem; rw [hw] at this; simp at this
    · exact h1
  have service : ∀ program, Unused y.s → (y.resumeService cfg id program r).stop ≠ some .ub := by
    intro program hu
    obtain ⟨s', e⟩ := preparePipes_some (nd := cfg.ndebug) hu.fresh
    unfold SessCh.resumeService
    split
    · exact (NoAssert.refuse (y := y.finish id) hst _ _).ub
    · rw [e]
      simp only
      split
      · exact (NoAssert.refuse (y := SessCh.finish ⟨s', y.buf, y.stop⟩ id) hst _ _).ub
      · exact (NoAssert.launch (y := ⟨s', y.buf, y.stop⟩) hst _ _ _ _ _).ub
  split
  · rename_i cmd ht
    obtain ⟨hu, _⟩ := key _ ht rfl
    unfold SessCh.resumeExec
    split
    · simp [SessCh.halt]
    · have : ∃ s', y.s.prepareExec cfg = some s' := by
        unfold Sess.prepareExec
        rw [hu.agent]
        simp only [Bool.false_and, cond_false, Bool.false_or]
        cases y.s.tty.isSome
        · exact preparePipes_some ⟨hu.fresh.stdin, hu.fresh.stdout, hu.fresh.stderr⟩
        · exact ⟨_, rfl⟩
      obtain ⟨s', e⟩ := this
      rw [e]
      exact (NoAssert.launch (y := ⟨s', y.buf, y.stop⟩) hst _ _ _ _ _).ub
  · rename_i cmd ht; exact service _ (key _ ht rfl).1
  · rename_i cmd ht; exact service _ (key _ ht rfl).1
  · rename_i ht
    obtain ⟨hu, htty⟩ := key _ ht rfl
    unfold SessCh.resumeSftp
    split
    · simp [SessCh.halt]
    · rw [htty rfl]
      simp only [Option.isSome_none, Bool.false_and, cond_false]
      obtain ⟨s', e⟩ := preparePipes_some (nd := cfg.ndebug) hu.fresh
      rw [e]
      exact (NoAssert.launch (y := ⟨s', y.buf, y.stop⟩) hst _ _ _ _ _).ub
  · rw [h]; simp

end

/-! ## All events -/

structure SessFine (y : SessCh) : Prop where
  noUb : y.stop ≠ some .ub
  buf : y.stop = none → BufInv y.buf
  half : y.stop = none → RECEIVE_WINDOW / 2 ≤ y.s.recvWin

theorem SessFine.ofBuf {r : Sess × Buf × Option BufStop} (h1 : r.2.2 ≠ some .ub) (h2 : r.2.2 = none → BufInv r.2.1)
    (h3 : RECEIVE_WINDOW / 2 ≤ r.1.recvWin) : SessFine (SessCh.ofBuf r) := by
  obtain ⟨s, b, st⟩ := r
  refine ⟨?_, ?_, fun _ => h3⟩
  · cases st with
    | none => simp [SessCh.ofBuf]
    | some st => cases st <;> simp [SessCh.ofBuf, BufStop.toSess] at h1 ⊢
  · simpa [SessCh.ofBuf] using h2

theorem Spec.Polite.prefix {a b : List SessEntry} (h : Polite (a ++ b)) : Polite a := by
  intro c d e
  obtain ⟨h1, h2⟩ := h c (d ++ b) (by rw [e]; simp)
  simp only [List.mem_append, not_or] at h1 h2
  exact ⟨h1.1, fun bs => (h2 bs).1⟩

theorem Spec.Polite.no {a b : List SessEntry} {e} (h : Polite (a ++ e :: b)) (he : e = .io (.rx .eof) ∨ ∃ bs, e = .data bs) :
    .io (.rx .eof) ∉ a := by
  intro hc
  obtain ⟨c, d, rfl⟩ := List.append_of_mem hc
  obtain ⟨h1, h2⟩ := h c (d ++ e :: b) (by simp)
  rcases he with rfl | ⟨bs, rfl⟩
  · exact h1 (by simp)
  · exact h2 bs (by simp)

theorem SessFine.handle {cfg} {y : SessCh} (hord : Ord cfg y.s) (hrd : y.s.reading = true → 0 < y.s.sendWin) (hb : SessBuf y)
    (hst : y.stop = none) (h : SessFine y) (ev) (hc : sessCalm ev = true) (hp : Polite (y.handle cfg ev).s.log) :
    SessFine (y.handle cfg ev) := by
  have hbi := h.buf hst
  have hh := h.half hst
  have hna : NoAssert y.stop := .inl hst
  -- events which do not concern the buffer
  have other : bufEvent ev = false → (y.handle cfg ev).stop ≠ some .ub → (y.handle cfg ev).s.recvWin = y.s.recvWin →
      SessFine (y.handle cfg ev) := by
    intro hb h1 h2
    exact ⟨h1, fun _ => by rw [handle_buf y hb]; exact hbi, fun _ => by rw [h2]; exact hh⟩
  cases ev with
  | request name data ok =>
    refine other rfl (NoAssert.request (y := ⟨y.s.emit (.asked name data), y.buf, y.stop⟩) hna name data ok).ub ?_
    exact (Idle.request cfg ⟨y.s.emit (.asked name data), y.buf, y.stop⟩ name data ok).recvWin
  | enqueued id r => exact other rfl (enqueued_ub hst hord id r) (Idle.enqueued cfg y id r).recvWin
  | completed id err =>
    refine other rfl ?_ (Idle.completed cfg y id err).recvWin
    simp only [SessCh.handle, SessCh.completed]
    split
    · split
      · split
        · exact hna.ub
        · exact (NoAssert.refuse (y := y.finish id) hna _ _).ub
      · exact hna.ub
    · exact hna.ub
  | exited =>
    refine other rfl ?_ (Idle.exited (b := true) y).recvWin
    simp only [SessCh.handle, SessCh.exited]
    split
    · exact hna.ub
    · exact closeIfInactive_ub ⟨_, y.buf, y.stop⟩ hst
  | restricted r => exact other rfl hna.ub rfl
  | recvData bs k =>
    simp only [SessCh.handle] at hp ⊢
    split at hp
    · rename_i hn
      rw [if_pos hn]
      exact ⟨by simp [SessCh.halt], by simp [SessCh.halt], by simp [SessCh.halt]⟩
    · rename_i hn
      rw [if_neg hn]
      have hm : Misc true (y.s.emit (.data bs)) (y.buf.onData Sess.ops (y.s.emit (.data bs)) bs k).1 :=
        (Misc.keeps (y.s.emit (.data bs))).onData (.refl _ _) fun h => h
      obtain ⟨l, e, _⟩ := hm.log
      have hpol : BufEntry.recvEof ∉ y.buf.log := by
        intro hc
        refine Spec.Polite.no (a := y.s.log) (b := l) (e := .data bs) ?_ (.inr ⟨bs, rfl⟩) (hb.eof hc)
        have e' : (SessCh.ofBuf (y.buf.onData Sess.ops (y.s.emit (.data bs)) bs k)).s.log = y.s.log ++ .data bs :: l := by
          rw [show (SessCh.ofBuf (y.buf.onData Sess.ops (y.s.emit (.data bs)) bs k)).s.log = _ from e]; simp [Sess.emit]
        rw [← e']; exact hp
      obtain ⟨eof, told, h1, h2, _⟩ := hbi
      obtain ⟨rfl, rfl⟩ := BufInv.not_eof hpol h1
      have hd := sdata_ok (s := y.s.emit (.data bs)) (c := bs) (k := k) hh (by show _ ≤ y.s.recvWin; omega)
      have he : (y.buf.emit (.recv bs)).eofPending = false := h2
      have h3 : (y.buf.onData Sess.ops (y.s.emit (.data bs)) bs k).2.2 ≠ some .ub ∧
          RECEIVE_WINDOW / 2 ≤ (y.buf.onData Sess.ops (y.s.emit (.data bs)) bs k).1.recvWin := by
        unfold Buf.onData
        simp only [he, cond_false]
        split
        · exact ⟨by simp, hh⟩
        · generalize Sess.ops.data (y.s.emit (.data bs)) bs k = r at *
          obtain ⟨s', res⟩ := r
          cases res with
          | error e => exact ⟨fun hc => hd.2 (by simpa using hc), hd.1⟩
          | ok n => exact ⟨by simp, hd.1⟩
      exact SessFine.ofBuf h3.1 ((h.buf hst).onData hpol _ _ _).1 h3.2
  | recvExt n => simp [sessCalm] at hc
  | recvEof =>
    simp only [SessCh.handle] at hp ⊢
    have hm : Misc true (y.s.emit (.io (.rx .eof))) (y.buf.onEof Sess.ops (y.s.emit (.io (.rx .eof)))).1 :=
      (Misc.keeps (y.s.emit (.io (.rx .eof)))).onEof (.refl _ _) fun h => h
    obtain ⟨l, e, _⟩ := hm.log
    have hpol : BufEntry.recvEof ∉ y.buf.log := by
      intro hc
      refine Spec.Polite.no (a := y.s.log) (b := l) (e := .io (.rx .eof)) ?_ (.inl rfl) (hb.eof hc)
      have e' : (SessCh.ofBuf (y.buf.onEof Sess.ops (y.s.emit (.io (.rx .eof))))).s.log = y.s.log ++ .io (.rx .eof) :: l := by
        rw [show (SessCh.ofBuf (y.buf.onEof Sess.ops (y.s.emit (.io (.rx .eof))))).s.log = _ from e]; simp [Sess.emit]
      rw [← e']; exact hp
    obtain ⟨eof, told, h1, h2, _⟩ := hbi
    obtain ⟨rfl, rfl⟩ := BufInv.not_eof hpol h1
    have he : (y.buf.emit .recvEof).eofPending = false := h2
    have h3 : (y.buf.onEof Sess.ops (y.s.emit (.io (.rx .eof)))).2.2 ≠ some .ub ∧
        RECEIVE_WINDOW / 2 ≤ (y.buf.onEof Sess.ops (y.s.emit (.io (.rx .eof)))).1.recvWin := by
      unfold Buf.onEof
      simp only [he, cond_false]
      split
      · exact ⟨by simp, by simp only [Sess.ops]; rw [closeStdin_recvWin]; exact hh⟩
      · exact ⟨by simp, hh⟩
    exact SessFine.ofBuf h3.1 ((h.buf hst).onEof hpol _).1 h3.2
  | recvAdjust n =>
    refine other rfl ?_ ?_
    · simp only [SessCh.handle]
      split
      · simp [SessCh.halt]
      · exact hna.ub
    · simp only [SessCh.handle]
      split
      · rfl
      · simp only; split <;> rfl
  | blocked =>
    refine other rfl hna.ub ?_
    simp only [SessCh.handle]; split <;> rfl
  | unblocked =>
    refine other rfl hna.ub ?_
    simp only [SessCh.handle, Sess.maybeScheduleRead]; split <;> rfl
  | writes f bs =>
    refine other rfl hna.ub ?_
    simp only [SessCh.handle, Sess.processWrites]
    split
    · rfl
    · rename_i x _
      cases x.writers
      · rfl
      · cases f <;> rfl
  | closes f =>
    refine other rfl hna.ub ?_
    simp only [SessCh.handle, Sess.processCloses]
    split
    · rfl
    · cases f == Stream.terminal && y.s.slaveTty
      · cases f <;> rfl
      · rfl
  | stdinReady ks =>
    simp only [SessCh.handle, SessCh.stdinReady]
    split
    · cases y.buf.enough ks
      · exact h
      · simp only [cond_true]
        have hro := sread_ok (s := { y.s with stdin := some false }) (b := y.buf) (ks := ks)
          (by simpa [sessCalm, List.all_eq_true] using hc) hh
        exact .ofBuf hro.2 (hbi.read _ _).1 hro.1
    · exact h
  | pipeReady f len =>
    refine other rfl ?_ ?_
    · simp only [SessCh.handle, SessCh.pipeReady]
      split
      · exact hna.ub
      · split
        · exact hna.ub
        · rename_i x hx
          cases hr : x.rd && (!x.content.isEmpty || !x.writers)
          · exact hna.ub
          · rw [Bool.and_eq_true] at hr
            exact readSource_ub y hst (hrd (source_reading hx hr.1)) _ _ _
    · simp only [SessCh.handle, SessCh.pipeReady]
      split
      · rfl
      · split
        · rfl
        · rename_i x hx
          cases x.rd && (!x.content.isEmpty || !x.writers)
          · rfl
          · exact readSource_recvWin _ _ _ _
  | ttyReady wr len =>
    show SessFine (y.ttyReady cfg wr len)
    have hks : ∀ y1, (y1 = y ∨ ∃ ks, wr = some ks ∧ y1 = SessCh.ofBuf (y.buf.read Sess.ops { y.s with ttyWr := false } ks)) → SessFine y1 := by
      rintro y1 (rfl | ⟨ks, rfl, rfl⟩)
      · exact h
      · have hro := sread_ok (s := { y.s with ttyWr := false }) (b := y.buf) (ks := ks)
          (by simpa [sessCalm, List.all_eq_true] using hc) hh
        exact .ofBuf hro.2 (hbi.read _ _).1 hro.1
    obtain ⟨y1, g⟩ := ttyReady_split (cfg := cfg) (m := ⟨false, false, false, y.s, none⟩) y rfl hst hrd wr len
    have h1 : SessFine y1 := by
      rcases g.mid with e | ⟨ks, hwr, _, _, e⟩
      · exact hks _ (.inl e)
      · exact hks _ (.inr ⟨ks, hwr, e⟩)
    exact ⟨g.ub h1.noUb, fun hs => by rw [g.buf]; exact h1.buf (g.stop hs), fun hs => by rw [g.win]; exact h1.half (g.stop hs)⟩
  | gone => exact other rfl (by simp [SessCh.handle, SessCh.halt]) (Idle.dropChild (b := true) y.s).recvWin

theorem sess_fine (cfg r w evs) (hc : ∀ ev ∈ evs, sessCalm ev = true) (ho : Orderly ((SessCh.init r w).run cfg evs).s.log)
    (hp : Polite ((SessCh.init r w).run cfg evs).s.log) : SessFine ((SessCh.init r w).run cfg evs) := by
  induction evs using Aux.snoc_ind with
  | h0 => exact ⟨by simp [SessCh.run, SessCh.init], fun _ => BufInv.init, fun _ => Nat.div_le_self _ _⟩
  | h1 evs ev ih =>
    obtain ⟨l, e⟩ := step_log cfg r w evs ev
    rw [e] at ho hp
    have ho1 := ho.prefix
    have hp1 := hp.prefix
    have ih := ih (fun ev h => hc ev (List.mem_append_left _ h)) ho1 hp1
    rw [← e, SessCh.run_snoc] at ho hp
    rw [SessCh.run_snoc]
    unfold SessCh.step at ho hp ⊢
    split
    · exact ih
    · rename_i h
      simp only [h] at ho hp
      exact SessFine.handle (sess_ord cfg r w evs ho1 h) (sess_acc cfg r w evs).rd (sess_buf cfg r w evs) h ih ev
        (hc ev (List.mem_append_right _ (List.mem_singleton.mpr rfl))) hp

end Lukko
