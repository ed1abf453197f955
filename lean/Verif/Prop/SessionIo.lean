import Verif.Proof.SessionGate
/-
  Property theorems about the data on session channels: C58, C65, C68, C69, and C19, C24,
  C25, C59 for session channels.

  `SessCh.run cfg (SessCh.init r w) evs`: as in Prop/Session.
-/
namespace Lukko
open Model Spec

variable {cfg : SessCfg} {r : Restrictions} {w : Nat} {evs : List SessEvent}

/-- An example: "cat" gets two packets of data, accepts a part of the input at once and
the rest later, and writes it back. -/
def demoCfg : SessCfg := { exec := true, sftp := true }
def demoCat : List SessEvent :=
  [.request (ascii "exec") (str (ascii "cat")) true, .recvData [1, 2] (.wrote 9), .enqueued 0 .ok, .completed 0 none,
   .recvData [3, 4] (.wrote 0), .recvEof, .stdinReady [(0, .wrote 1), (0, .wrote 1), (9, .wrote 1), (0, .wouldBlock)],
   .writes .stdout [1, 2, 3], .pipeReady .stdout 99, .stdinReady [(9, .wrote 9)], .writes .stdout [4], .closes .stdout,
   .closes .stderr, .pipeReady .stderr 0, .pipeReady .stdout 5, .exited, .pipeReady .stdout 5]

theorem demoCat_log : (SessCh.run demoCfg (SessCh.init {} 100) demoCat).s.log =
    [.asked (ascii "exec") (str (ascii "cat")), .data [1, 2], .started { program := .command (ascii "cat") }, .answered true,
     .data [3, 4], .io (.rx .eof), .input [1], .input [2], .input [3], .wrote .stdout [1, 2, 3], .sent .stdout [1, 2, 3],
     .input [4], .inputClosed, .wrote .stdout [4], .sent .stdout [4], .exited, .io (.tx (.request false)),
     .io (.tx .eof), .io (.tx .close)] := by decide +kernel

/-! ## C68 -/

/-- **C68.** What was written to the process, or thrown away because it does not accept
it, is an initial part of what the client sent. -/
theorem C68_prefix : inputOrLost (SessCh.run cfg (SessCh.init r w) evs).s.log <+:
    clientData (SessCh.run cfg (SessCh.init r w) evs).s.log := by
  have h := sess_acc cfg r w evs
  rw [h.took, h.got]
  exact (sess_buf cfg r w evs).le

/-- **C68.** The rest is in the buffer, as long as the channel is open. -/
theorem C68_rest (hs : (SessCh.run cfg (SessCh.init r w) evs).stop = none) :
    inputOrLost (SessCh.run cfg (SessCh.init r w) evs).s.log ++ (SessCh.run cfg (SessCh.init r w) evs).buf.queue =
      clientData (SessCh.run cfg (SessCh.init r w) evs).s.log := by
  have h := sess_acc cfg r w evs
  rw [h.took, h.got]
  exact (sess_buf cfg r w evs).eq hs

example : (SessCh.run demoCfg (SessCh.init {} 100) (demoCat.take 7)).stop = none ∧
    inputOrLost (SessCh.run demoCfg (SessCh.init {} 100) (demoCat.take 7)).s.log = [1, 2, 3] ∧
    (SessCh.run demoCfg (SessCh.init {} 100) (demoCat.take 7)).buf.queue = [4] := by decide +kernel

/-! ## C65 -/

/-- Input can be passed on: the process was started successfully, and its standard input,
or the terminal, is open. -/
abbrev Model.Sess.acceptsInput (s : Sess) : Prop := s.stdinEnabled = true ∧ (s.stdin.isSome = true ∨ s.tty.isSome = true)

/-- **C65.** If the client asks for one process only, and for a terminal only before
that: while input is buffered and can be passed on, the channel waits for the process's
standard input, or else the terminal, to become writable. -/
theorem C65_waits_partial (ho : Orderly (SessCh.run cfg (SessCh.init r w) evs).s.log)
    (hs : (SessCh.run cfg (SessCh.init r w) evs).stop = none)
    (hq : (SessCh.run cfg (SessCh.init r w) evs).buf.queue ≠ [])
    (ha : (SessCh.run cfg (SessCh.init r w) evs).s.acceptsInput) :
    (SessCh.run cfg (SessCh.init r w) evs).s.stdin = some true ∨
    ((SessCh.run cfg (SessCh.init r w) evs).s.stdin = none ∧ (SessCh.run cfg (SessCh.init r w) evs).s.ttyWr = true) :=
  (sess_waits cfg r w evs ho hs hq).ready ha.1 ha.2

/-- Writing everything. -/
def WritesAll (ks : List (Nat × Wrote)) : Prop := ∀ x ∈ ks, ∃ m, x.2 = .wrote m ∧ x.1 + 1 ≤ m

theorem read_drained {ks : List (Nat × Wrote)} : ∀ {b : Buf} {s : Sess}, s.stdinEnabled = true → WritesAll ks → b.queue.length ≤ ks.length →
    (b.read Sess.ops s ks).2.2 = none → (b.read Sess.ops s ks).2.1.queue = [] := by
  have hfin : ∀ {b : Buf} {s : Sess}, b.queue = [] → (b.finish Sess.ops s).2.1.queue = [] := by
    intro b s h
    unfold Buf.finish
    cases b.eofPending <;> exact h
  induction ks with
  | nil =>
    intro b s _ _ h _
    have hq : b.queue = [] := List.length_eq_zero_iff.mp (by simpa using h)
    unfold Buf.read
    rw [if_pos hq]
    exact hfin hq
  | cons x ks ih =>
    obtain ⟨len, k⟩ := x
    intro b s he hw h hs
    obtain ⟨m, hk, hm⟩ := hw _ List.mem_cons_self
    simp only at hk hm
    subst hk
    unfold Buf.read at hs ⊢
    split
    · rename_i hq; exact hfin hq
    · rename_i hq
      rw [if_neg hq] at hs
      simp only at hs ⊢
      have hlen : b.queue.length ≠ 0 := fun hc => hq (List.length_eq_zero_iff.mp hc)
      have hall : (∃ s', Sess.ops.data s (b.queue.take (len + 1)) (.wrote m) = (s', .error .ub)) ∨
          ∃ s', Sess.ops.data s (b.queue.take (len + 1)) (.wrote m) = (s', .ok (b.queue.take (len + 1)).length) ∧ s'.stdinEnabled = true := by
        unfold Sess.ops
        simp only [he, Bool.not_true, cond_false]
        cases hc : !s.stdin.isSome && !s.tty.isSome
        · simp only [cond_false, Sess.writeInput]
          have hmin : min m (b.queue.take (len + 1)).length = (b.queue.take (len + 1)).length := by
            simp only [List.length_take]; omega
          rw [hmin]
          split
          · exact .inl ⟨_, rfl⟩
          · rename_i s1 hc1
            refine .inr ⟨_, rfl, ?_⟩
            have := ((Misc.wroteInput s (b.queue.take (len + 1)) (b.queue.take (len + 1)).length).trans (Misc.consume hc1)).enabled
            rw [this]; exact he
        · exact .inr ⟨_, rfl, he⟩
      rcases hall with ⟨s', e⟩ | ⟨s', e, he'⟩
      · rw [e] at hs; simp at hs
      · rw [e] at hs ⊢
        simp only at hs ⊢
        rw [if_neg (by omega)] at hs ⊢
        refine ih he' (fun y hy => hw y (List.mem_cons_of_mem _ hy)) ?_ hs
        simp only [Buf.emit, List.length_drop, List.length_take, List.length_cons] at h ⊢
        omega

theorem read_empty {ks : List (Nat × Wrote)} {b : Buf} {s : Sess} (h : b.queue = []) : (b.read Sess.ops s ks).2.1.queue = [] := by
  have hfin : (b.finish Sess.ops s).2.1.queue = [] := by
    unfold Buf.finish
    cases b.eofPending <;> exact h
  cases ks <;> (unfold Buf.read; rw [if_pos h]; exact hfin)

/-- **C65.** When what it waits for is writable and accepts everything, all input is
passed on. -/
theorem C65_delivered_partial (ho : Orderly (SessCh.run cfg (SessCh.init r w) evs).s.log)
    (hs : (SessCh.run cfg (SessCh.init r w) evs).stop = none)
    (ha : (SessCh.run cfg (SessCh.init r w) evs).s.acceptsInput)
    {ks : List (Nat × Wrote)} (hks : WritesAll ks) (hlen : (SessCh.run cfg (SessCh.init r w) evs).buf.queue.length ≤ ks.length) {len : Nat}
    (hs' : (SessCh.run cfg (SessCh.init r w) (evs ++ [.stdinReady ks, .ttyReady (some ks) len])).stop = none) :
    inputOrLost (SessCh.run cfg (SessCh.init r w) (evs ++ [.stdinReady ks, .ttyReady (some ks) len])).s.log =
      clientData (SessCh.run cfg (SessCh.init r w) (evs ++ [.stdinReady ks, .ttyReady (some ks) len])).s.log := by
  have hrest := C68_rest hs'
  suffices hq : (SessCh.run cfg (SessCh.init r w) (evs ++ [.stdinReady ks, .ttyReady (some ks) len])).buf.queue = [] by
    rw [hq, List.append_nil] at hrest; exact hrest
  have hw := sess_waits cfg r w evs ho hs
  have hrd1 := (sess_acc cfg r w (evs ++ [.stdinReady ks])).rd
  have e : evs ++ [.stdinReady ks, .ttyReady (some ks) len] = (evs ++ [.stdinReady ks]) ++ [.ttyReady (some ks) len] := by simp
  rw [e, SessCh.run_snoc] at hs' ⊢
  rw [SessCh.run_snoc] at hs' hrd1 ⊢
  generalize SessCh.run cfg (SessCh.init r w) evs = y at *
  have e1 : y.step cfg (.stdinReady ks) = y.stdinReady ks := by unfold SessCh.step; rw [hs]; rfl
  rw [e1] at hs' hrd1 ⊢
  have hs1 : (y.stdinReady ks).stop = none := by
    cases hx : (y.stdinReady ks).stop with
    | none => rfl
    | some st => unfold SessCh.step at hs'; rw [hx] at hs'; simp only at hs'; rw [hx] at hs'; simp at hs'
  have e2 : (y.stdinReady ks).step cfg (.ttyReady (some ks) len) = (y.stdinReady ks).ttyReady cfg (some ks) len := by
    unfold SessCh.step; rw [hs1]; rfl
  rw [e2] at hs' ⊢
  have hemp : (y.stdinReady ks).buf.queue = [] → ((y.stdinReady ks).ttyReady cfg (some ks) len).buf.queue = [] := by
    intro hq
    obtain ⟨y1, g⟩ := ttyReady_split (cfg := cfg) (m := ⟨false, false, false, (y.stdinReady ks).s, none⟩) (y.stdinReady ks) rfl hs1 hrd1 (some ks) len
    rw [g.buf]
    rcases g.mid with e | ⟨ks', _, _, _, e⟩
    · rw [e]; exact hq
    · rw [e]; exact read_empty hq
  by_cases hq : y.buf.queue = []
  · refine hemp ?_
    unfold SessCh.stdinReady
    split
    · cases y.buf.enough ks
      · exact hq
      · exact read_empty hq
    · exact hq
  · have henough : y.buf.enough ks = true := decide_eq_true hlen
    rcases (hw hq).ready ha.1 ha.2 with h1 | ⟨h1, h2⟩
    · refine hemp ?_
      unfold SessCh.stdinReady at hs1 ⊢
      rw [h1] at hs1 ⊢
      simp only [henough, cond_true] at hs1 ⊢
      exact read_drained (s := { y.s with stdin := some false }) ha.1 hks hlen (ofBuf_stop hs1)
    · have e3 : y.stdinReady ks = y := by unfold SessCh.stdinReady; rw [h1]
      rw [e3] at hs' ⊢
      have htty : y.s.tty.isSome = true := by
        rcases ha.2 with h | h
        · rw [h1] at h; simp at h
        · exact h
      obtain ⟨x, hx⟩ := Option.isSome_iff_exists.mp htty
      have hwrit : y.ttyWritable (some ks) = some ks := by simp [SessCh.ttyWritable, h2, henough]
      have e4 : y.ttyReady cfg (some ks) len = (y.ttyWrite (some ks)).ttyRead cfg (x.rd && !x.content.isEmpty) len := by
        unfold SessCh.ttyReady
        rw [hx, hwrit]
        simp only [Option.isSome_some, Bool.not_true, Bool.and_false, cond_false]
      have e5 : ((y.ttyWrite (some ks)).ttyRead cfg (x.rd && !x.content.isEmpty) len).buf = (y.ttyWrite (some ks)).buf := by
        unfold SessCh.ttyRead
        split
        · rfl
        · split
          · rfl
          · cases (x.rd && !x.content.isEmpty)
            · rfl
            · exact readSource_buf _ _ _ _ _
      have e6 : (y.ttyWrite (some ks)).stop = none := by
        cases hx : (y.ttyWrite (some ks)).stop with
        | none => rfl
        | some st =>
          rw [e4] at hs'
          unfold SessCh.ttyRead at hs'
          rw [hx] at hs'
          simp only at hs'
          rw [hx] at hs'; simp at hs'
      rw [e4, e5]
      exact read_drained (s := { y.s with ttyWr := false }) ha.1 hks hlen (ofBuf_stop e6)

/-- … in which two bytes were waiting when the process was started. -/
example : let y := SessCh.run demoCfg (SessCh.init {} 100) (demoCat.take 4)
    y.buf.queue = [1, 2] ∧ y.s.stdinEnabled = true ∧ y.s.stdin = some true ∧ y.stop = none := by decide +kernel

/-- **C65** is false: if the process ends while input is buffered, and then a terminal is
requested and a shell, the shell never gets that input, nor any other. -/
theorem C65_violated :
    let y := SessCh.run demoCfg (SessCh.init {} 100)
      [.request (ascii "exec") (str (ascii "cat")) true, .enqueued 0 .ok, .completed 0 none,
       .recvData [1, 2] .wouldBlock, .exited, .request (ascii "pty-req") (str [] ++ (u32 80 ++ u32 24 ++ u32 0 ++ u32 0) ++ str [0]) true,
       .request (ascii "shell") [] true, .enqueued 1 .ok, .completed 1 none, .recvData [3] (.wrote 1)]
    y.stop = none ∧ y.buf.queue = [1, 2, 3] ∧ y.s.child.isSome = true ∧ y.s.acceptsInput ∧ y.s.stdin = none ∧ y.s.ttyWr = false := by
  decide +kernel

/-! ## C69 -/

/-- **C69.** No assertion fails if the client asks for one process only, and for a
terminal only before that; sends nothing after end-of-file and no extended data; and no
part of the buffer which is passed on at once is larger than half a window. -/
theorem C69_partial (hc : ∀ ev ∈ evs, sessCalm ev = true) (ho : Orderly (SessCh.run cfg (SessCh.init r w) evs).s.log)
    (hp : Polite (SessCh.run cfg (SessCh.init r w) evs).s.log) :
    (SessCh.run cfg (SessCh.init r w) evs).stop ≠ some .ub := (sess_fine cfg r w evs hc ho hp).noUb

theorem polite_of {log a b : List SessEntry} (h : log = a ++ .io (.rx .eof) :: b) (ha : .io (.rx .eof) ∉ a)
    (hb : .io (.rx .eof) ∉ b) (hd : ∀ bs, .data bs ∉ b) : Polite log := by
  intro a' b' e
  rw [h] at e
  rcases split_append (l := a) (m := .io (.rx .eof) :: b) e with ⟨c, rfl⟩ | ⟨c, rfl, e2⟩
  · simp at ha
  · cases c with
    | nil => simp only [List.nil_append, List.cons.injEq, true_and] at e2; rw [← e2]; exact ⟨hb, hd⟩
    | cons x c =>
      simp only [List.cons_append, List.cons.injEq] at e2
      rw [e2.2] at hb; simp at hb

theorem demoCat_polite : Polite (SessCh.run demoCfg (SessCh.init {} 100) demoCat).s.log := by
  rw [demoCat_log]
  exact polite_of (a := (SessCh.run demoCfg (SessCh.init {} 100) (demoCat.take 5)).s.log)
    (b := [.input [1], .input [2], .input [3], .wrote .stdout [1, 2, 3], .sent .stdout [1, 2, 3],
     .input [4], .inputClosed, .wrote .stdout [4], .sent .stdout [4], .exited, .io (.tx (.request false)),
     .io (.tx .eof), .io (.tx .close)]) (by decide +kernel) (by decide +kernel) (by simp) (by simp)

theorem orderly_of {log : List SessEntry} (h : startRequests log ≤ 1) (ht : .terminalAllocated ∉ log) : Orderly log :=
  ⟨h, fun a b e => absurd (by rw [e]; simp) ht⟩

theorem demoCat_orderly : Orderly (SessCh.run demoCfg (SessCh.init {} 100) demoCat).s.log := by
  rw [demoCat_log]
  exact orderly_of (by decide +kernel) (by decide +kernel)

example : (∀ ev ∈ demoCat, sessCalm ev = true) ∧ Orderly (SessCh.run demoCfg (SessCh.init {} 100) demoCat).s.log ∧
    Polite (SessCh.run demoCfg (SessCh.init {} 100) demoCat).s.log :=
  ⟨by decide +kernel, demoCat_orderly, demoCat_polite⟩

/-- **C69** is false: an assertion fails if data follows end-of-file (here before the
process is started), … -/
theorem C69_data_after_eof_violated :
    (SessCh.run demoCfg (SessCh.init {} 100) [.recvData [1] .wouldBlock, .recvEof, .recvData [2] .wouldBlock]).stop = some .ub := by
  decide +kernel

/-- … if end-of-file is sent twice, … -/
theorem C69_eof_twice_violated :
    (SessCh.run demoCfg (SessCh.init {} 100) [.recvData [1] .wouldBlock, .recvEof, .recvEof]).stop = some .ub := by
  decide +kernel

/-- … if the window is used up by extended data while data is buffered, … -/
theorem C69_extended_data_violated :
    (SessCh.run demoCfg (SessCh.init {} 100)
      [.recvData [1] .wouldBlock, .recvExt RECEIVE_WINDOW, .request (ascii "shell") [] true, .enqueued 0 .ok, .completed 0 none,
       .stdinReady [(0, .wrote 1)]]).stop = some .ub := by
  decide +kernel

/-- … or if a terminal is requested right after the sftp subsystem, before the server
has started it. -/
theorem C69_sftp_terminal_violated :
    (SessCh.run demoCfg (SessCh.init {} 100)
      [.request (ascii "subsystem") (str (ascii "sftp")) true,
       .request (ascii "pty-req") (str [] ++ (u32 80 ++ u32 24 ++ u32 0 ++ u32 0) ++ str [0]) true, .enqueued 0 .ok]).stop = some .ub := by
  decide +kernel

/-! ## C58 -/

/-- **C58.** If the client sends end-of-file, nothing else after it, and a process without
a terminal is started: as soon as everything was passed on to it, its standard input is
closed.  (Except if end-of-file arrived before, and there was no data left.) -/
theorem C58_partial (hp : Polite (SessCh.run cfg (SessCh.init r w) evs).s.log)
    (hs : (SessCh.run cfg (SessCh.init r w) evs).stop = none)
    {a b : List SessEntry} {p : Proc} (hl : (SessCh.run cfg (SessCh.init r w) evs).s.log = a ++ .started p :: b)
    (ht : p.terminal = false) (hx : ¬ (.io (.rx .eof) ∈ a ∧ inputOrLost a = clientData a))
    (he : .io (.rx .eof) ∈ (SessCh.run cfg (SessCh.init r w) evs).s.log)
    (hall : inputOrLost (SessCh.run cfg (SessCh.init r w) evs).s.log = clientData (SessCh.run cfg (SessCh.init r w) evs).s.log) :
    .inputClosed ∈ b := by
  rcases sess_eof cfg r w evs hp a p b hl ht hx with h | ⟨_, h⟩
  · exact h
  · exfalso
    have hrest := C68_rest hs
    have hq : (SessCh.run cfg (SessCh.init r w) evs).buf.queue = [] := by
      rw [← hall] at hrest; simpa using hrest
    have hpend := h ((sess_buf cfg r w evs).eof' he)
    obtain ⟨eof, told, _, h2, h3⟩ := sess_pipe cfg r w evs hp hs
    rw [hpend] at h2
    cases eof <;> cases told <;> simp at h2
    exact h3 rfl rfl hq

example : let y := SessCh.run demoCfg (SessCh.init {} 100) (demoCat.take 10)
    y.s.log = [.asked (ascii "exec") (str (ascii "cat")), .data [1, 2]] ++ .started { program := .command (ascii "cat") } ::
      [.answered true, .data [3, 4], .io (.rx .eof), .input [1], .input [2], .input [3], .wrote .stdout [1, 2, 3], .sent .stdout [1, 2, 3],
       .input [4], .inputClosed] ∧
    .io (.rx .eof) ∈ y.s.log ∧ inputOrLost y.s.log = clientData y.s.log ∧ y.stop = none := by decide +kernel

/-- **C58.** Conversely, the standard input is closed only if the client sent end-of-file,
after everything before it was passed on; or after the process has ended; or because
writing to it failed; or when it is replaced by an error message. -/
theorem C58_only {a c : List SessEntry} (hl : (SessCh.run cfg (SessCh.init r w) evs).s.log = a ++ .inputClosed :: c) :
    CloseReason a c := sess_closes cfg r w evs a c hl

example : ∃ a c, (SessCh.run demoCfg (SessCh.init {} 100) demoCat).s.log = a ++ .inputClosed :: c ∧
    .io (.rx .eof) ∈ a ∧ inputOrLost a = [1, 2, 3, 4] :=
  ⟨(SessCh.run demoCfg (SessCh.init {} 100) (demoCat.take 10)).s.log.dropLast, _, by rw [demoCat_log]; exact rfl, by decide +kernel, by decide +kernel⟩

/-- **C58** is false if end-of-file arrives before the process is started and no data is
buffered: the process waits forever. -/
theorem C58_early_violated :
    let y := SessCh.run demoCfg (SessCh.init {} 100)
      [.request (ascii "exec") (str (ascii "cat")) true, .recvEof, .enqueued 0 .ok, .completed 0 none]
    y.stop = none ∧ .io (.rx .eof) ∈ y.s.log ∧ y.s.child.isSome = true ∧ .inputClosed ∉ y.s.log ∧
    y.s.stdin = some false ∧ y.buf.eofPending = false := by decide +kernel

/-- **C58** is false for processes with a terminal: nothing happens at end-of-file. -/
theorem C58_terminal_violated :
    let evs : List SessEvent := [.request (ascii "pty-req") (str [] ++ (u32 80 ++ u32 24 ++ u32 0 ++ u32 0) ++ str [0]) true,
      .request (ascii "shell") [] true, .enqueued 0 .ok, .completed 0 none]
    let y := SessCh.run demoCfg (SessCh.init {} 100) evs
    let z := SessCh.run demoCfg (SessCh.init {} 100) (evs ++ [.recvEof])
    y.stop = none ∧ y.s.child.isSome = true ∧ y.s.tty.isSome = true ∧ z.s = y.s.emit (.io (.rx .eof)) ∧ z.stop = none := by
  decide +kernel

/-! ## C24 -/

/-- **C24.** Bytes sent on a session channel never exceed the initial window and all
adjustments. -/
theorem C24_session : total IoEntry.sentBytes (sessIo (SessCh.run cfg (SessCh.init r w) evs).s.log) ≤
    w + total IoEntry.granted (sessIo (SessCh.run cfg (SessCh.init r w) evs).s.log) := by
  have := (sess_acc cfg r w evs).send
  omega

/-- A window of two bytes: the third is sent only after an adjustment. -/
def demoWindow : List SessEvent :=
  [.request (ascii "exec") (str (ascii "cat")) true, .enqueued 0 .ok, .completed 0 none, .writes .stdout [1, 2, 3], .writes .stderr [9],
   .pipeReady .stdout 99, .pipeReady .stdout 99, .pipeReady .stderr 99]

example : (SessCh.run demoCfg (SessCh.init {} 2) demoWindow).stop = none ∧
    total IoEntry.sentBytes (sessIo (SessCh.run demoCfg (SessCh.init {} 2) demoWindow).s.log) = 2 ∧
    total IoEntry.sentBytes (sessIo (SessCh.run demoCfg (SessCh.init {} 2)
      (demoWindow ++ [.recvAdjust 2, .pipeReady .stdout 99, .pipeReady .stderr 99])).s.log) = 4 := by decide +kernel

/-! ## C59 -/

/-- **C59.** While the window is used up, or if it was zero in the beginning, nothing is
read from the process's standard output and standard error output, … -/
theorem C59_session (h0 : total IoEntry.sentBytes (sessIo (SessCh.run cfg (SessCh.init r w) evs).s.log) =
      w + total IoEntry.granted (sessIo (SessCh.run cfg (SessCh.init r w) evs).s.log)) (f : Stream) (len : Nat) :
    SessCh.run cfg (SessCh.init r w) (evs ++ [.pipeReady f len]) = SessCh.run cfg (SessCh.init r w) evs := by
  have hacc := sess_acc cfg r w evs
  rw [SessCh.run_snoc]
  generalize SessCh.run cfg (SessCh.init r w) evs = y at *
  have hsend := hacc.send
  unfold SessCh.step
  split
  · rfl
  · simp only [SessCh.handle]
    split
    · rfl
    · unfold SessCh.pipeReady
      split
      · rfl
      · rename_i x hx
        cases hr : x.rd with
        | false => simp
        | true => have := hacc.rd (source_reading hx hr); omega

/-- … nor from the terminal, unless it hangs up. -/
theorem C59_session_terminal (h0 : total IoEntry.sentBytes (sessIo (SessCh.run cfg (SessCh.init r w) evs).s.log) =
      w + total IoEntry.granted (sessIo (SessCh.run cfg (SessCh.init r w) evs).s.log))
    (hw : ∀ x, (SessCh.run cfg (SessCh.init r w) evs).s.tty = some x → x.writers = true) (len : Nat) :
    SessCh.run cfg (SessCh.init r w) (evs ++ [.ttyReady none len]) = SessCh.run cfg (SessCh.init r w) evs := by
  have hacc := sess_acc cfg r w evs
  rw [SessCh.run_snoc]
  generalize SessCh.run cfg (SessCh.init r w) evs = y at *
  have hsend := hacc.send
  unfold SessCh.step
  split
  · rfl
  · simp only [SessCh.handle, SessCh.ttyReady]
    split
    · rfl
    · rename_i x hx
      cases hr : x.rd with
      | false => simp [SessCh.ttyWritable, hw x hx]
      | true => have := hacc.rd (source_reading (f := .terminal) hx hr); omega

example : let y := SessCh.run demoCfg (SessCh.init {} 2) demoWindow
    total IoEntry.sentBytes (sessIo y.s.log) = 2 + total IoEntry.granted (sessIo y.s.log) ∧
    (y.s.stdout.map Source.content) = some [3] := by decide +kernel

/-- With an initial window of zero, output waits for the adjustment. -/
example : let y := SessCh.run demoCfg (SessCh.init {} 0) (demoWindow ++ [.recvAdjust 1, .pipeReady .stdout 99])
    y.stop = none ∧ .sent .stdout [1] ∈ y.s.log := by decide +kernel

/-! ## C25 -/

/-- **C25** is false for session channels, too: before a process is started, any amount of
data is buffered although nothing beyond the initial window was granted. -/
theorem C25_session_violated (B : Nat) :
    ∃ evs : List SessEvent, (SessCh.run cfg (SessCh.init r w) evs).stop = none ∧
      total IoEntry.weGranted (sessIo (SessCh.run cfg (SessCh.init r w) evs).s.log) = 0 ∧
      B < (SessCh.run cfg (SessCh.init r w) evs).buf.queue.length := by
  have key : ∀ k, ∃ s b, SessCh.run cfg (SessCh.init r w) (List.replicate (k + 1) (.recvData [0] .wouldBlock)) = ⟨s, b, none⟩ ∧
      total IoEntry.weGranted (sessIo s.log) = 0 ∧ b.queue.length = k + 1 ∧ b.eofPending = false ∧ s.recvWin = RECEIVE_WINDOW := by
    intro k
    induction k with
    | zero => exact ⟨_, _, rfl, rfl, rfl, rfl, rfl⟩
    | succ k ih =>
      obtain ⟨s, b, h1, h2, h3, h4, h5⟩ := ih
      rw [List.replicate_succ', SessCh.run_snoc, h1]
      have hq : b.queue ≠ [] := by intro hc; rw [hc] at h3; simp at h3
      have he : (b.emit (.recv [0])).eofPending = false := h4
      have hq' : (b.emit (.recv [0])).queue ≠ [] := hq
      have hw : ¬ [(0 : UInt8)].length > s.recvWin := by rw [h5]; decide
      simp only [SessCh.step, SessCh.handle, hw, if_false, Buf.onData, he, cond_false, hq', ne_eq, not_false_eq_true, if_true,
        SessCh.ofBuf, Option.map_none]
      refine ⟨_, _, rfl, ?_, ?_, rfl, h5⟩
      · simp only [Sess.emit, sessIo_append, total_append, h2]; rfl
      · simp only [Buf.emit, List.length_append, h3]; rfl
  obtain ⟨s, b, h1, h2, h3, _⟩ := key B
  refine ⟨_, by rw [h1], ?_, ?_⟩
  · rw [h1]; exact h2
  · rw [h1]; show B < b.queue.length; omega

/-- **C25.** A single packet that is larger than the window ends the connection. -/
theorem C25_session_large_packet_partial (hs : (SessCh.run cfg (SessCh.init r w) evs).stop = none) {bs : Bytes} {k : Wrote}
    (hb : RECEIVE_WINDOW < bs.length) :
    (SessCh.run cfg (SessCh.init r w) (evs ++ [.recvData bs k])).stop = some .connection := by
  have hle := (sess_acc cfg r w evs).le
  rw [SessCh.run_snoc]
  unfold SessCh.step
  rw [hs]
  simp only [SessCh.handle]
  rw [if_pos (by omega)]
  rfl

/-- **C25.** Everything we granted beyond the initial window replaces bytes that were
written to the process (or extended data, which is thrown away). -/
theorem C25_session_grant_partial :
    total IoEntry.weGranted (sessIo (SessCh.run cfg (SessCh.init r w) evs).s.log) ≤
      (inputBytes (SessCh.run cfg (SessCh.init r w) evs).s.log).length +
      total extBytes (sessIo (SessCh.run cfg (SessCh.init r w) evs).s.log) := by
  have h1 := (sess_acc cfg r w evs).recv
  have h2 := (sess_acc cfg r w evs).le
  omega

/-- **C25.** As long as the client has not sent more than we granted, and no input was
thrown away, the bytes buffered fit into the window. -/
theorem C25_session_honest_partial (hs : (SessCh.run cfg (SessCh.init r w) evs).stop = none)
    (hon : total IoEntry.gotBytes (sessIo (SessCh.run cfg (SessCh.init r w) evs).s.log) ≤
      RECEIVE_WINDOW + total IoEntry.weGranted (sessIo (SessCh.run cfg (SessCh.init r w) evs).s.log)) :
    (SessCh.run cfg (SessCh.init r w) evs).buf.queue.length ≤ RECEIVE_WINDOW := by
  have h := sess_acc cfg r w evs
  have h1 := h.recv
  have h2 := h.le
  have h3 := h.gotN
  have h4 := congrArg List.length (C68_rest hs)
  rw [List.length_append] at h4
  have h5 : (inputBytes (SessCh.run cfg (SessCh.init r w) evs).s.log).length ≤
      (inputOrLost (SessCh.run cfg (SessCh.init r w) evs).s.log).length := by
    generalize (SessCh.run cfg (SessCh.init r w) evs).s.log = log
    induction log with
    | nil => exact Nat.le_refl _
    | cons e log ih =>
      have ea : inputBytes (e :: log) = inputBytes [e] ++ inputBytes log := by simp [inputBytes]
      have eb : inputOrLost (e :: log) = inputOrLost [e] ++ inputOrLost log := by simp [inputOrLost]
      rw [ea, eb, List.length_append, List.length_append]
      have : (inputBytes [e]).length ≤ (inputOrLost [e]).length := by
        cases e <;> simp [inputBytes, inputOrLost]
      omega
  omega

example : let y := SessCh.run demoCfg (SessCh.init {} 100) (demoCat.take 5)
    total IoEntry.gotBytes (sessIo y.s.log) = 4 ∧ y.buf.queue.length = 4 ∧ y.stop = none := by decide +kernel

/-! ## C19 -/

/-- **C19.** No data is sent on a session channel between our KEXINIT and our NEWKEYS,
provided that during that time no process is started or asked for, and no adjustment of
an exhausted window arrives. -/
theorem C19_session_partial
    (hadj : ∀ a n b, (SessCh.run cfg (SessCh.init r w) evs).s.log = a ++ .io (.rx (.adjust n)) :: b →
      total IoEntry.sentBytes (sessIo a) = w + total IoEntry.granted (sessIo a) → inKex (sessIo a) = false)
    (hst : ∀ a ev b, evs = a ++ ev :: b → startEvent ev = true → inKex (sessIo (SessCh.run cfg (SessCh.init r w) a).s.log) = false)
    {a b : List SessEntry} {f : Stream} {bs : Bytes}
    (hl : (SessCh.run cfg (SessCh.init r w) evs).s.log = a ++ .sent f bs :: b) : inKex (sessIo a) = false :=
  (sess_gate cfg r w evs hadj hst).quiet a f bs b hl

/-- A key exchange takes place while a process writes. -/
def demoRekey : List SessEvent :=
  [.request (ascii "exec") (str (ascii "cat")) true, .enqueued 0 .ok, .completed 0 none, .writes .stdout [1, 2, 3],
   .pipeReady .stdout 0, .blocked, .pipeReady .stdout 0, .unblocked, .pipeReady .stdout 99]

theorem demoRekey_log : sessIo (SessCh.run demoCfg (SessCh.init {} 100) demoRekey).s.log =
    [.tx (.data 1), .kexinit, .newkeys, .tx (.data 2)] := by decide +kernel

example : (∀ e ∈ (SessCh.run demoCfg (SessCh.init {} 100) demoRekey).s.log, ∀ n, e ≠ .io (.rx (.adjust n))) ∧
    (∀ ev ∈ demoRekey.drop 3, startEvent ev = false) ∧
    inKex (sessIo (SessCh.run demoCfg (SessCh.init {} 100) (demoRekey.take 3)).s.log) = false := by
  refine ⟨?_, by decide +kernel, by decide +kernel⟩
  intro e he n hc
  subst hc
  have : (IoEntry.rx (.adjust n)) ∈ sessIo (SessCh.run demoCfg (SessCh.init {} 100) demoRekey).s.log :=
    List.mem_filterMap.mpr ⟨_, he, rfl⟩
  rw [demoRekey_log] at this
  simp at this

/-- **C19** is false: a process that is started during a key exchange can send data at
once. -/
theorem C19_session_violated :
    let y := SessCh.run demoCfg (SessCh.init {} 100)
      [.request (ascii "exec") (str (ascii "cat")) true, .blocked, .enqueued 0 .ok, .writes .stdout [1, 2, 3], .pipeReady .stdout 9]
    y.stop = none ∧ sessIo y.s.log = [.kexinit, .tx (.data 3)] := by decide +kernel

end Lukko
