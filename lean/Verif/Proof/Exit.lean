import Verif.Model.Exit
import Verif.Proof.SessionOrd
/-
  C89, C90: proofs.
-/
namespace Lukko
open Model Spec

/-! ## What is appended to the log -/

/-- The bytes of data sent. -/
def sentSize (e : SessEntry) : Nat := (e.toIo.map IoEntry.sentBytes).getD 0

/-- Data messages are small, and the end of processes is reported. -/
structure Tidy (log : List SessEntry) : Prop where
  small : ∀ e ∈ log, sentSize e ≤ 4096
  rep : Reports log

theorem Tidy.append {a b} (h : Tidy a) (g : Tidy b) : Tidy (a ++ b) := by
  refine ⟨fun e he => ?_, h.rep.append g.rep⟩
  rcases List.mem_append.mp he with he | he
  · exact h.small e he
  · exact g.small e he

theorem Tidy.nil : Tidy [] := ⟨by simp, .nil⟩

theorem Tidy.one {e} (h : sentSize e ≤ 4096) (g : reportEntry e = false) : Tidy [e] := ⟨by simpa using h, .other g .nil⟩

theorem Tidy.all {l} (h : ∀ e ∈ l, sentSize e ≤ 4096 ∧ reportEntry e = false) : Tidy l := by
  induction l with
  | nil => exact .nil
  | cons e l ih =>
    exact (Tidy.one (h e List.mem_cons_self).1 (h e List.mem_cons_self).2).append (ih fun x hx => h x (List.mem_cons_of_mem _ hx))

theorem Prim.tidy {cfg m s s'} (h : Prim cfg m s s') (g : Tidy s.log) : Tidy s'.log := by
  cases h with
  | misc h =>
    obtain ⟨l, e, hi, _⟩ := h.log
    rw [e]
    refine g.append ⟨fun x hx => ?_, h.rep l e⟩
    have := hi x hx
    revert this
    unfold inert
    split <;> simp [sentSize, SessEntry.toIo, IoEntry.sentBytes]
  | rx e h he => exact g.append (b := [e]) (by rcases he with rfl | ⟨bs, rfl⟩ <;> exact .one (by simp [sentSize, SessEntry.toIo, IoEntry.sentBytes]) rfl)
  | ask name data hk => exact g.append (.one (by simp [sentSize, SessEntry.toIo]) rfl)
  | suspend t => exact g
  | setStderr text =>
    obtain ⟨l, e, hl, _⟩ := setStderr_log s text
    rw [e]
    refine (g.append (.all fun x hx => ?_)).append (.one (by simp [sentSize, SessEntry.toIo]) rfl)
    rcases hl x hx with rfl | rfl <;> exact ⟨by simp [sentSize, SessEntry.toIo], rfl⟩
  | pipes => exact g
  | agent => exact g
  | handTty => exact g
  | spawn program original terminal =>
    obtain ⟨p, l, e, _, hl⟩ := spawn_log cfg s program original terminal
    rw [e]
    refine g.append (.all fun x hx => ?_)
    rcases List.mem_cons.mp hx with rfl | hx
    · exact ⟨by simp [sentSize, SessEntry.toIo], rfl⟩
    · rw [hl x hx]; exact ⟨by simp [sentSize, SessEntry.toIo], rfl⟩
  | sched => rw [maybeScheduleRead_log]; exact g
  | term => exact g.append (.one (by simp [sentSize, SessEntry.toIo]) rfl)
  | enable => exact g
  | adjust => exact g.append (.one (by simp [sentSize, SessEntry.toIo, IoEntry.sentBytes]) rfl)
  | kexinit => exact g.append (.one (by simp [sentSize, SessEntry.toIo, IoEntry.sentBytes]) rfl)
  | newkeys => rw [maybeScheduleRead_log]; exact g.append (.one (by simp [sentSize, SessEntry.toIo, IoEntry.sentBytes]) rfl)
  | wrote f x bs => simp only [Sess.emit, setSource_log]; exact g.append (.one (by simp [sentSize, SessEntry.toIo]) rfl)
  | closes f x => rw [setSource_log]; exact g
  | send f x len =>
    rw [sendFrom_log]
    refine g.append (.one ?_ rfl)
    have : (x.content.take (min (len + 1) (min 4096 s.sendWin))).length ≤ 4096 := by rw [List.length_take]; omega
    cases f <;> exact this
  | srcEnd f x => simp only [setSource_log]; exact g
  | eofOut => exact g.append (.one (by simp [sentSize, SessEntry.toIo, IoEntry.sentBytes]) rfl)
  | closeOut => exact g.append (.one (by simp [sentSize, SessEntry.toIo, IoEntry.sentBytes]) rfl)

theorem sess_tidy (cfg r w evs) : Tidy (SessCh.run cfg (SessCh.init r w) evs).s.log := by
  induction evs using Aux.snoc_ind with
  | h0 => exact .nil
  | h1 evs ev ih =>
    have hacc := sess_acc cfg r w evs
    rw [SessCh.run_snoc]
    unfold SessCh.step
    split
    · exact ih
    · exact Prims.induct (P := fun s => Tidy s.log) (fun _ _ => Prim.tidy)
        (Prims.handle (cfg := cfg) (m := ⟨startEvent ev, false, true, (SessCh.run cfg (SessCh.init r w) evs).s, received ev⟩) _ ev
          rfl rfl (fun _ => rfl) rfl hacc.rd (by simp)) ih

theorem Tidy.within {log} (h : Tidy log) : WithinMax 4096 (sessIo log) := by
  intro x hx
  obtain ⟨e, he, hs⟩ := List.mem_filterMap.mp hx
  have := h.small e he
  simpa [sentSize, hs] using this

/-! ## Reports -/

theorem Reports.told {log} (h : Reports log) : ∀ a b, log = a ++ .exited :: b →
    ∃ c, b = .io (.tx (.request false)) :: c ∨ b = .inputClosed :: .io (.tx (.request false)) :: c := by
  induction h with
  | nil => intro a b h; simp at h
  | other h _ ih =>
    intro a b e
    cases a with
    | nil => simp only [List.nil_append, List.cons.injEq] at e; rw [e.1] at h; simp [reportEntry] at h
    | cons x a => exact ih a b (List.cons.inj e).2
  | exit _ ih =>
    intro a b e
    match a with
    | [] => exact ⟨_, .inl (List.cons.inj e).2.symm⟩
    | [_] => simp at e
    | _ :: _ :: a => exact ih a b (List.cons.inj (List.cons.inj e).2).2
  | exitClosed _ ih =>
    intro a b e
    match a with
    | [] => exact ⟨_, .inr (List.cons.inj e).2.symm⟩
    | [_] => simp at e
    | [_, _] => simp at e
    | _ :: _ :: _ :: a => exact ih a b (List.cons.inj (List.cons.inj (List.cons.inj e).2).2).2

theorem Reports.only {log} (h : Reports log) : ∀ a b want, log = a ++ .io (.tx (.request want)) :: b → want = false ∧
    ∃ c, a = c ++ [.exited] ∨ a = c ++ [.exited, .inputClosed] := by
  induction h with
  | nil => intro a b w h; simp at h
  | other h _ ih =>
    intro a b w e
    cases a with
    | nil => simp only [List.nil_append, List.cons.injEq] at e; rw [e.1] at h; simp [reportEntry] at h
    | cons x a =>
      obtain ⟨h1, c, h2⟩ := ih a b w (List.cons.inj e).2
      exact ⟨h1, x :: c, by rcases h2 with h2 | h2 <;> simp [h2]⟩
  | exit _ ih =>
    intro a b w e
    match a with
    | [] => simp at e
    | [x] =>
      simp only [List.cons_append, List.nil_append, List.cons.injEq, SessEntry.io.injEq, IoEntry.tx.injEq, ChMsg.request.injEq] at e
      exact ⟨e.2.1.symm, [], .inl (by simp [e.1])⟩
    | x :: y :: a =>
      obtain ⟨h1, c, h2⟩ := ih a b w (List.cons.inj (List.cons.inj e).2).2
      exact ⟨h1, x :: y :: c, by rcases h2 with h2 | h2 <;> simp [h2]⟩
  | exitClosed _ ih =>
    intro a b w e
    match a with
    | [] => simp at e
    | [_] => simp at e
    | [x, y] =>
      simp only [List.cons_append, List.nil_append, List.cons.injEq, SessEntry.io.injEq, IoEntry.tx.injEq, ChMsg.request.injEq] at e
      exact ⟨e.2.2.1.symm, [], .inr (by simp [e.1, e.2.1])⟩
    | x :: y :: z :: a =>
      obtain ⟨h1, c, h2⟩ := ih a b w (List.cons.inj (List.cons.inj (List.cons.inj e).2).2).2
      exact ⟨h1, x :: y :: z :: c, by rcases h2 with h2 | h2 <;> simp [h2]⟩

/-! ## Socket channels -/

theorem WithinMax.snoc {m log e} (h : WithinMax m log) (g : e.sentBytes ≤ m) : WithinMax m (log ++ [e]) := by
  intro x hx
  rcases List.mem_append.mp hx with hx | hx
  · exact h x hx
  · rw [List.mem_singleton.mp hx]; exact g

theorem WithinMax.keeps (m : Nat) : Keeps Sock.ops (fun s _ => WithinMax m s.log) where
  eof := fun h => h
  stop := by
    intro g b c k e g' h hd
    cases k with
    | wouldBlock => simp [Sock.ops] at hd
    | failed => simp [Sock.ops] at hd; obtain ⟨rfl, _⟩ := hd; exact h
    | wrote n =>
      simp only [Sock.ops] at hd
      split at hd
      · simp at hd; obtain ⟨rfl, _⟩ := hd; exact h
      · simp at hd
  data := by
    intro g b c k n g' q h hd
    cases k with
    | wouldBlock => simp [Sock.ops] at hd; obtain ⟨rfl, rfl⟩ := hd; exact h
    | failed => simp [Sock.ops] at hd
    | wrote n =>
      simp only [Sock.ops] at hd
      split at hd
      · simp at hd
      · rename_i s' hc
        simp at hd; obtain ⟨rfl, rfl⟩ := hd
        simp only [Sock.consume] at hc
        split at hc
        · split at hc
          · simp at hc; subst hc; exact WithinMax.snoc h (by simp [IoEntry.sentBytes])
          · simp at hc; subst hc; exact h
        · simp at hc

/-- The log of a channel. -/
def SockSmall (y : SockCh) : Prop := WithinMax 4096 y.sock.log

theorem SockSmall.close {y} (h : SockSmall y) : SockSmall y.close := WithinMax.snoc h (by simp [IoEntry.sentBytes])

theorem SockSmall.onRead {nd y r} (h : SockSmall y) : SockSmall (y.onRead nd r).1 := by
  unfold SockCh.onRead
  simp only
  split
  · cases nd
    · exact h
    · exact h.close
  · split
    · exact h.close
    · exact WithinMax.snoc h (by simp only [IoEntry.sentBytes]; omega)

theorem SockSmall.handle {nd y ev} (h : SockSmall y) : SockSmall (y.handle nd ev) := by
  cases ev with
  | recvData bs k =>
    simp only [SockCh.handle]
    split
    · exact h
    · exact (WithinMax.keeps 4096).onData (WithinMax.snoc h (by simp [IoEntry.sentBytes])) fun h => h
  | recvExt n =>
    simp only [SockCh.handle]
    split
    · exact h
    · exact WithinMax.snoc h (by simp [IoEntry.sentBytes])
  | recvEof => exact (WithinMax.keeps 4096).onEof (WithinMax.snoc h (by simp [IoEntry.sentBytes])) fun h => h
  | recvAdjust n =>
    simp only [SockCh.handle]
    split
    · exact h
    · exact WithinMax.snoc h (by simp [IoEntry.sentBytes])
  | blocked => exact WithinMax.snoc h (by simp [IoEntry.sentBytes])
  | unblocked => exact WithinMax.snoc h (by simp [IoEntry.sentBytes])
  | error =>
    simp only [SockCh.handle]
    cases y.sock.rd || y.sock.wr
    · exact h
    · exact h.close
  | ready w r hup =>
    simp only [SockCh.handle]
    generalize (bif y.sock.wr then w else none) = w'
    generalize (bif y.sock.rd then r else none) = r'
    have h1 : SockSmall (y.onWrite w') := by
      cases w' with
      | none => exact h
      | some ks => exact (WithinMax.keeps 4096).read (g := { y.sock with wr := false }) h
    have h2 : SockSmall ((y.onWrite w').maybeRead nd r').1 := by
      cases r' with
      | none => exact h1
      | some r => exact h1.onRead
    unfold SockCh.onReady
    split
    · exact h1
    · unfold SockCh.onHup
      simp only
      split
      · exact h2
      · cases hup && ((y.onWrite w').maybeRead nd r').2
        · exact h2
        · exact h2.close

theorem sock_small (nd w evs) : SockSmall (SockCh.run nd (SockCh.init w) evs) := by
  induction evs using Aux.snoc_ind with
  | h0 => intro e he; simp [SockCh.run, SockCh.init] at he
  | h1 evs ev ih =>
    rw [SockCh.run_snoc]
    unfold SockCh.step
    split
    · exact ih
    · exact ih.handle

end Lukko
