import Verif.Proof.RelayRun
/-
  A forwarded connection makes progress.
-/
namespace Lukko
open Model Spec

theorem consume_grows {s s' : Sock} {n} (h : s.consume n = some s') : s.log <+: s'.log := by
  simp only [Sock.consume] at h
  split at h
  · split at h
    · simp at h; subst h; exact List.prefix_append _ _
    · simp at h; subst h; exact List.prefix_refl _
  · simp at h

theorem onReady_read {y : SockCh} (nd) (hs : y.stop = none) (r : ReadResult) (hup b) :
    y.onReady nd (bif b then none else none) (some r) hup = SockCh.onHup hup (y.onRead nd r) := by
  have : (bif b then none else none : Option (List (Nat × Wrote))) = none := by cases b <;> rfl
  rw [this]
  simp only [SockCh.onReady, SockCh.onWrite, hs, SockCh.maybeRead]

/-- The socket is reported readable. -/
abbrev readNow : RelayEvent := .ready none true 0 false

theorem read_once {full} {y : Relay} (h : RelayInv full y) (nd) (hs : y.ch.stop = none) (hk : inKex y.ch.sock.log = false)
    (hi : y.inbox ≠ []) (hw : 0 < y.ch.sock.sendWin) :
    let n := min y.inbox.length (min 4096 y.ch.sock.sendWin)
    let z := y.step nd readNow
    z.ch.stop = none ∧ inKex z.ch.sock.log = false ∧ z.inbox = y.inbox.drop n ∧ z.ch.sock.sendWin = y.ch.sock.sendWin - n ∧
    hostSaid z.log = hostSaid y.log ∧ z.fin = y.fin ∧ y.log <+: z.log := by
  intro n z
  have hrd := h.ok.open_ hk hw
  have hpos := List.length_pos_iff.mpr hi
  have hr : y.reads 0 = some (some (y.inbox.length - 1)) := by simp [Relay.reads, hi]
  have hact : y.act nd readNow =
      { y.ch with sock := { y.ch.sock.emit (.tx (.data n)) with
          sendWin := y.ch.sock.sendWin - n, rd := y.ch.sock.sendWin - n != 0 } } := by
    have hmin : min (y.inbox.length - 1 + 1) (min 4096 y.ch.sock.sendWin) = n := by
      rw [Nat.sub_add_cancel hpos]
    have h0 : min 4096 y.ch.sock.sendWin ≠ 0 := by omega
    simp only [Relay.act, Relay.event, SockCh.handle, Option.map_none, cond_true, hr, hrd, Bool.false_and]
    rw [onReady_read nd hs]
    simp only [SockCh.onRead, if_neg h0, SockCh.onHup, hs, cond_false, hmin, Bool.false_and, Sock.emit, hrd, Bool.true_and]
  have hstep : z = y.absorb (y.act nd readNow) := by
    show y.step nd readNow = _
    unfold Relay.step
    rw [hs]
    have : y.before readNow = y := rfl
    simp only [this]
  have hd := absorb_facts (y := y) (c := y.act nd readNow) (by rw [hact]; exact List.prefix_refl _) (by rw [hact]; exact List.prefix_append _ _)
  have hdd : total dataBytes (y.act nd readNow).sock.log - total dataBytes y.ch.sock.log = n := by
    rw [hact]
    simp only [Sock.emit, total_snoc, dataBytes]
    omega
  rw [hdd] at hd
  rw [hstep]
  refine ⟨?_, ?_, hd.inbox, ?_, hd.said, hd.fin, hd.grows⟩
  · rw [hd.ch, hact]; exact hs
  · rw [hd.ch, hact]
    simp only [Sock.emit, inKex_snoc]
    exact hk
  · rw [hd.ch, hact]

/-- Everything reaches the client. -/
theorem drain_client {full} (nd) : ∀ (m : Nat) {y : Relay}, RelayInv full y → y.inbox.length ≤ m → y.ch.stop = none →
    inKex y.ch.sock.log = false → y.inbox.length ≤ y.ch.sock.sendWin →
    ∃ k, (Relay.run nd y (List.replicate k readNow)).inbox = [] ∧
      hostSaid (Relay.run nd y (List.replicate k readNow)).log = hostSaid y.log ∧
      RelayInv full (Relay.run nd y (List.replicate k readNow)) ∧
      (Relay.run nd y (List.replicate k readNow)).ch.stop = none ∧
      inKex (Relay.run nd y (List.replicate k readNow)).ch.sock.log = false ∧
      (Relay.run nd y (List.replicate k readNow)).fin = y.fin ∧
      (Relay.run nd y (List.replicate k readNow)).ch.sock.sendWin + y.inbox.length = y.ch.sock.sendWin := by
  intro m
  induction m with
  | zero =>
    intro y h hm hs hk hw
    have hi := List.eq_nil_of_length_eq_zero (Nat.le_zero.mp hm)
    exact ⟨0, hi, rfl, h, hs, hk, rfl, by rw [hi]; rfl⟩
  | succ m ih =>
    intro y h hm hs hk hw
    by_cases hi : y.inbox = []
    · exact ⟨0, hi, rfl, h, hs, hk, rfl, by rw [hi]; rfl⟩
    · have hpos := List.length_pos_iff.mpr hi
      obtain ⟨g1, g2, g3, g4, g5, g6, _⟩ := read_once h nd hs hk hi (by omega)
      have hlen := congrArg List.length g3
      rw [List.length_drop] at hlen
      obtain ⟨k, f1, f2, f3, f4, f5, f6, f7⟩ := ih (h.step nd readNow fun _ => rfl) (by omega) g1 g2 (by omega)
      have hrun : Relay.run nd y (List.replicate (k + 1) readNow) =
          Relay.run nd (y.step nd readNow) (List.replicate k readNow) := rfl
      refine ⟨k + 1, ?_, ?_, ?_, ?_, ?_, ?_, ?_⟩
      · rw [hrun]; exact f1
      · rw [hrun, f2]; exact g5
      · rw [hrun]; exact f3
      · rw [hrun]; exact f4
      · rw [hrun]; exact f5
      · rw [hrun, f6]; exact g6
      · rw [hrun]; omega

/-- End-of-file is seen when everything was read. -/
theorem read_end {full} {y : Relay} (h : RelayInv full y) (nd) (hs : y.ch.stop = none) (hk : inKex y.ch.sock.log = false)
    (hi : y.inbox = []) (hf : y.fin = true) (hw : 0 < y.ch.sock.sendWin) :
    RelayEntry.closes ∈ (y.step nd readNow).log ∧ hostSaid (y.step nd readNow).log = hostSaid y.log ∧
    clientHeard (y.step nd readNow).log = clientHeard y.log := by
  have hrd := h.ok.open_ hk hw
  have hr : y.reads 0 = some none := by simp [Relay.reads, hi, hf]
  have hact : y.act nd readNow = y.ch.close := by
    have h0 : min 4096 y.ch.sock.sendWin ≠ 0 := by omega
    simp only [Relay.act, Relay.event, SockCh.handle, Option.map_none, cond_true, hr, hrd, Bool.false_and]
    rw [onReady_read nd hs]
    simp only [SockCh.onRead, if_neg h0, SockCh.onHup, SockCh.close]
  have hstep : y.step nd readNow = y.absorb y.ch.close := by
    unfold Relay.step
    rw [hs]
    have : y.before readNow = y := rfl
    simp only [this, hact]
  have hcf := close_facts y.ch h.ok
  have hd := absorb_facts (y := y) (c := y.ch.close) (List.prefix_refl _) hcf.2.2
  rw [hcf.2.1, Nat.sub_self] at hd
  rw [hstep]
  refine ⟨?_, hd.said, ?_⟩
  · simp [Relay.absorb, SockCh.close, Sock.emit, Relay.sends, Relay.send, Relay.note]
  · rw [hd.heard]; simp

/-- The socket is reported writable, and accepts everything. -/
abbrev Model.Relay.writeAll (y : Relay) : RelayEvent :=
  .ready (some [(y.ch.buf.queue.length, .wrote y.ch.buf.queue.length)]) false 0 false

theorem drain_host {full} {y : Relay} (h : RelayInv full y) (nd) (hs : y.ch.stop = none)
    (hw : y.ch.buf.queue.length ≤ y.ch.sock.recvWin) :
    hostHeard (y.step nd y.writeAll).log = clientSaid (y.step nd y.writeAll).log ∧
    clientSaid (y.step nd y.writeAll).log = clientSaid y.log ∧ (y.step nd y.writeAll).ch.stop = none ∧
    (RelayEntry.clientEnds ∈ y.log → RelayEntry.endToHost ∈ (y.step nd y.writeAll).log) := by
  have hi : RelayInv full (y.step nd y.writeAll) := h.step nd _ fun _ => rfl
  have hact : y.act nd y.writeAll = y.ch.onReady nd
      (bif y.ch.sock.wr then some [(y.ch.buf.queue.length, .wrote y.ch.buf.queue.length), (0, .wouldBlock)] else none) none false := by
    simp only [Relay.act, Relay.event, SockCh.handle, Option.map_some, Relay.writes, List.map_cons, List.map_nil, Wrote.real,
      List.cons_append, List.nil_append, Bool.false_and, cond_false]
    cases y.ch.sock.rd <;> cases y.ch.sock.wr <;> rfl
  have hstep : y.step nd y.writeAll = y.absorb (y.act nd y.writeAll) := by
    unfold Relay.step
    rw [hs]
    have : y.before y.writeAll = y := rfl
    simp only [this]
  have key : (y.act nd y.writeAll).buf.queue = [] ∧ (y.act nd y.writeAll).stop = none ∧
      bufBytes (y.act nd y.writeAll).buf.log = bufBytes y.ch.buf.log ∧ y.ch.buf.log <+: (y.act nd y.writeAll).buf.log ∧
      y.ch.sock.log <+: (y.act nd y.writeAll).sock.log ∧ (y.act nd y.writeAll).buf.eofPending = false := by
    rw [hact]
    by_cases hq : y.ch.buf.queue = []
    · have hp : y.ch.buf.eofPending = false := by
        cases hp : y.ch.buf.eofPending
        · rfl
        · exact absurd hq (h.ok.pend hs hp)
      have hrd : y.ch.buf.read Sock.ops { y.ch.sock with wr := false }
          [(y.ch.buf.queue.length, .wrote y.ch.buf.queue.length), (0, .wouldBlock)] = ({ y.ch.sock with wr := false }, y.ch.buf, none) := by
        unfold Buf.read
        rw [if_pos hq]
        simp only [Buf.finish, hp, cond_false]
      cases y.ch.sock.wr
      · simp only [cond_false, SockCh.onReady, SockCh.onWrite, hs, SockCh.maybeRead, SockCh.onHup]
        exact ⟨hq, hs, rfl, List.prefix_refl _, List.prefix_refl _, hp⟩
      · simp only [cond_true, SockCh.onReady, SockCh.onWrite, hrd, SockCh.ofBuf, Option.map_none, SockCh.maybeRead, SockCh.onHup,
          Bool.false_and, cond_false]
        exact ⟨hq, by trivial, by trivial, List.prefix_refl _, List.prefix_refl _, hp⟩
    · have hwr := h.ok.wr hs hq
      have hchunk : y.ch.buf.queue.take (y.ch.buf.queue.length + 1) = y.ch.buf.queue := List.take_of_length_le (by omega)
      obtain ⟨s', hc, _⟩ := consume_ok (s := { y.ch.sock with wr := false }) hw
      have hdata : Sock.ops.data { y.ch.sock with wr := false } y.ch.buf.queue (.wrote y.ch.buf.queue.length) =
          (s', .ok y.ch.buf.queue.length) := by
        simp only [Sock.ops, Nat.min_self, Nat.lt_irrefl, decide_false, Bool.or_false, hc]
      have hread : y.ch.buf.read Sock.ops { y.ch.sock with wr := false }
          [(y.ch.buf.queue.length, .wrote y.ch.buf.queue.length), (0, .wouldBlock)] =
          Buf.finish Sock.ops s' ⟨[], y.ch.buf.eofPending, y.ch.buf.log ++ [.took y.ch.buf.queue]⟩ := by
        rw [Buf.read, if_neg hq]
        simp only [hchunk, hdata, List.take_length, Nat.lt_irrefl, if_false, List.drop_length, Buf.emit]
        rw [Buf.read, if_pos rfl]
      have hsp : y.ch.sock.log <+: s'.log := consume_grows (s := { y.ch.sock with wr := false }) hc
      have hbb : bufBytes (y.ch.buf.log ++ [.took y.ch.buf.queue]) = bufBytes y.ch.buf.log := by
        rw [bufBytes_snoc]; simp
      simp only [hwr, cond_true, SockCh.onReady, SockCh.onWrite, hread]
      cases hp : y.ch.buf.eofPending
      · simp only [Buf.finish, cond_false, SockCh.ofBuf, Option.map_none, SockCh.maybeRead, SockCh.onHup,
          Bool.false_and, cond_false]
        exact ⟨by trivial, by trivial, hbb, List.prefix_append _ _, hsp, by trivial⟩
      · simp only [Buf.finish, cond_true, SockCh.ofBuf, Option.map_none, SockCh.maybeRead, SockCh.onHup,
          Bool.false_and, cond_false, Buf.emit]
        refine ⟨by trivial, by trivial, ?_, (List.prefix_append _ _).trans (List.prefix_append _ _), hsp, by trivial⟩
        rw [bufBytes_snoc, hbb]; simp
  obtain ⟨k1, k2, k3, k4, k5, k6⟩ := key
  have ha := absorb_facts k4 k5
  rw [hstep] at hi ⊢
  have hch := ha.ch
  have hsq := hi.ok.seq (by rw [hch]; exact k2)
  have hsaid : clientSaid (y.absorb (y.act nd y.writeAll)).log = clientSaid y.log := by
    rw [← clientSaid_view, ← clientSaid_view, hi.view, h.view, hch, k3]
  refine ⟨?_, hsaid, by rw [hch]; exact k2, ?_⟩
  · have := hsq.seq
    rw [hch, k1, List.append_nil] at this
    rw [← clientSaid_view, ← hostHeard_view, hi.view, hch]
    exact this
  · intro hx
    have h1 : BufEntry.recvEof ∈ (y.absorb (y.act nd y.writeAll)).ch.buf.log := by
      rw [← hi.view]
      exact clientEnds_view.mpr (ha.grows.subset hx)
    rcases hsq.told h1 with h2 | h2
    · rw [hch, k6] at h2; cases h2
    · rw [← hi.view] at h2
      exact endToHost_view.mp h2

end Lukko
