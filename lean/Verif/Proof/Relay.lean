import Verif.Model.Relay
import Verif.Proof.Socket
/-
  Invariants of a forwarded connection.
-/
namespace Lukko
open Model Spec

/-! ## The input buffer -/

/-- End-of-file is told only when it was received and everything received was taken. -/
def EofOk (log : List BufEntry) : Prop :=
  ∀ a b, log = a ++ .sawEof :: b → BufEntry.recvEof ∈ a ∧ taken a = bufBytes a

theorem EofOk.snoc {log e} (h : EofOk log) (he : e = .sawEof → BufEntry.recvEof ∈ log ∧ taken log = bufBytes log) :
    EofOk (log ++ [e]) := by
  intro a b hs
  rcases Aux.snoc_split hs with ⟨_, rfl, rfl⟩ | ⟨b', _, h2⟩
  · exact he rfl
  · exact h a b' h2

/-- Nothing is lost, added or reordered. -/
structure BufSeq (b : Buf) : Prop where
  seq : taken b.log ++ b.queue = bufBytes b.log
  pend : b.eofPending = true → BufEntry.recvEof ∈ b.log
  told : BufEntry.recvEof ∈ b.log → b.eofPending = true ∨ BufEntry.sawEof ∈ b.log
  ends : EofOk b.log

/-- The same after an exception in `OnData`, when the rest of the payload is thrown away. -/
structure BufPre (b : Buf) : Prop where
  pre : taken b.log <+: bufBytes b.log
  ends : EofOk b.log

theorem BufSeq.toPre {b} (h : BufSeq b) : BufPre b := ⟨⟨_, h.seq⟩, h.ends⟩

theorem BufSeq.took {b : Buf} (h : BufSeq b) (c : Bytes) (hc : c <+: b.queue) :
    BufSeq { b.emit (.took c) with queue := b.queue.drop c.length } := by
  obtain ⟨t, ht⟩ := hc
  refine ⟨?_, ?_, ?_, h.ends.snoc (by simp)⟩
  · simp only [Buf.emit, taken_snoc, bufBytes_snoc, List.append_nil, ← h.seq, ← ht, List.drop_left, List.append_assoc]
  · intro hp
    exact List.mem_append_left _ (h.pend hp)
  · simp only [Buf.emit, List.mem_append, List.mem_singleton, reduceCtorEq, or_false]
    exact h.told

theorem BufSeq.finish {γ κ} {ops : BufOps γ κ} {g : γ} {b : Buf} (h : BufSeq b) (hq : b.queue = []) :
    BufSeq (b.finish ops g).2.1 := by
  unfold Buf.finish
  cases hp : b.eofPending
  · exact h
  · have hs := h.seq
    rw [hq, List.append_nil] at hs
    refine ⟨?_, by simp [cond_true], fun _ => .inr (by simp [Buf.emit]), h.ends.snoc fun _ => ⟨h.pend hp, hs⟩⟩
    simp only [cond_true, Buf.emit, taken_snoc, bufBytes_snoc, List.append_nil, hq, hs]

theorem BufSeq.read {γ κ} {ops : BufOps γ κ} (ks : List (Nat × κ)) : ∀ {g : γ} {b : Buf}, BufSeq b →
    BufSeq (b.read ops g ks).2.1 := by
  induction ks with
  | nil =>
    intro g b h
    unfold Buf.read
    split
    · rename_i hq; exact h.finish hq
    · exact h
  | cons x ks ih =>
    obtain ⟨len, k⟩ := x
    intro g b h
    unfold Buf.read
    split
    · rename_i hq; exact h.finish hq
    · simp only
      split
      · exact h
      · rename_i g' n hd
        have h' := h.took ((b.queue.take (len + 1)).take n) ((List.take_prefix _ _).trans (List.take_prefix _ _))
        split
        · exact h'
        · exact ih h'

theorem BufSeq.onData {γ κ} {ops : BufOps γ κ} {g : γ} {b : Buf} {pl k} (h : BufSeq b) :
    BufPre (b.onData ops g pl k).2.1 ∧ ((b.onData ops g pl k).2.2 = none → BufSeq (b.onData ops g pl k).2.1) := by
  have hpre : BufPre (b.emit (.recv pl)) := by
    refine ⟨?_, h.ends.snoc (by simp)⟩
    simp only [Buf.emit, taken_snoc, bufBytes_snoc, List.append_nil, ← h.seq]
    exact ⟨b.queue ++ pl, by simp⟩
  unfold Buf.onData
  simp only
  cases hp : (b.emit (.recv pl)).eofPending
  · simp only [cond_false]
    have hp' : b.eofPending = false := hp
    split
    · have : BufSeq ⟨b.queue ++ pl, false, b.log ++ [.recv pl]⟩ := by
        refine ⟨?_, by simp, ?_, hpre.ends⟩
        · simp only [taken_snoc, bufBytes_snoc, List.append_nil, ← h.seq, List.append_assoc]
        · simp only [List.mem_append, List.mem_singleton, reduceCtorEq, or_false]
          exact fun hx => .inr ((h.told hx).resolve_left (by rw [hp']; exact Bool.false_ne_true))
      exact ⟨this.toPre, fun _ => this⟩
    · rename_i hq
      have hq : b.queue = [] := by simpa [Buf.emit] using hq
      split
      · exact ⟨hpre, by simp⟩
      · rename_i g' n hd
        have : BufSeq ⟨pl.drop n, b.eofPending, (b.log ++ [.recv pl]) ++ [.took (pl.take n)]⟩ := by
          have hs := h.seq
          rw [hq, List.append_nil] at hs
          refine ⟨?_, by simp [hp'], ?_, hpre.ends.snoc (by simp)⟩
          · rw [taken_snoc, bufBytes_snoc, taken_snoc, bufBytes_snoc]
            simp only [List.append_nil, hs, List.append_assoc, List.take_append_drop]
          · simp only [List.mem_append, List.mem_singleton, reduceCtorEq, or_false]
            exact h.told
        exact ⟨this.toPre, fun _ => this⟩
  · exact ⟨hpre, by simp⟩

theorem BufSeq.onEof {γ κ} {ops : BufOps γ κ} {g : γ} {b : Buf} (h : BufSeq b) :
    BufSeq (b.onEof ops g).2.1 := by
  have hs1 : taken (b.emit .recvEof).log ++ b.queue = bufBytes (b.emit .recvEof).log := by
    simp only [Buf.emit, taken_snoc, bufBytes_snoc, List.append_nil, h.seq]
  have he1 : EofOk (b.emit .recvEof).log := h.ends.snoc (by simp)
  unfold Buf.onEof
  simp only
  cases hp : (b.emit .recvEof).eofPending
  · simp only [cond_false]
    split
    · rename_i hq
      have hq : b.queue = [] := by simpa [Buf.emit] using hq
      have hs := h.seq
      rw [hq, List.append_nil] at hs
      refine ⟨?_, ?_, fun _ => .inr (by simp [Buf.emit]), he1.snoc fun _ => ⟨by simp [Buf.emit], ?_⟩⟩
      · simp only [Buf.emit, taken_snoc, bufBytes_snoc, List.append_nil, hq, hs]
      · have : b.eofPending = false := hp
        simp [Buf.emit, this]
      · simp only [Buf.emit, taken_snoc, bufBytes_snoc, List.append_nil, hs]
    · exact ⟨hs1, fun _ => by simp [Buf.emit], fun _ => .inl rfl, he1⟩
  · exact ⟨hs1, fun _ => by simp [Buf.emit], fun _ => .inl hp, he1⟩

/-- After reading, end-of-file is still to be told only if something is left. -/
theorem read_pend {γ κ} {ops : BufOps γ κ} (ks : List (Nat × κ)) : ∀ {g : γ} {b : Buf},
    (b.read ops g ks).2.2 = none → (b.read ops g ks).2.1.eofPending = true → (b.read ops g ks).2.1.queue ≠ [] := by
  have hfin : ∀ (g : γ) (b : Buf), (b.finish ops g).2.1.eofPending = false := by
    intro g b
    unfold Buf.finish
    cases hp : b.eofPending
    · exact hp
    · rfl
  induction ks with
  | nil =>
    intro g b
    unfold Buf.read
    split
    · rw [hfin]; simp
    · rename_i hq; exact fun _ _ => hq
  | cons x ks ih =>
    obtain ⟨len, k⟩ := x
    intro g b
    unfold Buf.read
    split
    · rw [hfin]; simp
    · simp only
      split
      · simp
      · split
        · rename_i hn
          intro _ _ hq
          have := congrArg List.length hq
          simp only [List.length_drop, List.length_nil, List.length_take] at this hn
          omega
        · exact ih

/-! ## The consumer of the socket channel -/

/-- Bytes in CHANNEL_DATA. -/
def dataBytes : IoEntry → Nat
  | .tx (.data n) => n
  | _ => 0

/-- What writing to the socket does not touch. -/
structure SockAside (s0 : Sock) (b0 : Buf) (s : Sock) (b : Buf) : Prop where
  rd : s.rd = s0.rd
  win : s.sendWin = s0.sendWin
  kex : inKex s.log = inKex s0.log
  data : total dataBytes s.log = total dataBytes s0.log
  close : IoEntry.tx .close ∈ s.log → IoEntry.tx .close ∈ s0.log
  sockp : s0.log <+: s.log
  bufp : b0.log <+: b.log

theorem SockAside.refl (s : Sock) (b : Buf) : SockAside s b s b :=
  ⟨rfl, rfl, rfl, rfl, id, List.prefix_refl _, List.prefix_refl _⟩

theorem SockAside.keeps (s0 b0) : Keeps Sock.ops (SockAside s0 b0) where
  eof := fun h => ⟨h.rd, h.win, h.kex, h.data, h.close, h.sockp, h.bufp.trans (List.prefix_append _ _)⟩
  stop := by
    intro g b c k e g' h hd
    cases k with
    | wouldBlock => simp [Sock.ops] at hd
    | failed => simp [Sock.ops] at hd; obtain ⟨rfl, _⟩ := hd; exact h
    | wrote m =>
      simp only [Sock.ops] at hd
      split at hd
      · simp at hd; obtain ⟨rfl, _⟩ := hd; exact ⟨h.rd, h.win, h.kex, h.data, h.close, h.sockp, h.bufp⟩
      · simp at hd
  data := by
    intro g b c k n g' q h hd
    have hb : b0.log <+: (b.emit (.took (c.take n))).log := h.bufp.trans (List.prefix_append _ _)
    cases k with
    | wouldBlock => simp [Sock.ops] at hd; obtain ⟨rfl, rfl⟩ := hd; exact ⟨h.rd, h.win, h.kex, h.data, h.close, h.sockp, hb⟩
    | failed => simp [Sock.ops] at hd
    | wrote m =>
      simp only [Sock.ops] at hd
      split at hd
      · simp at hd
      · rename_i s' hc
        simp at hd; obtain ⟨rfl, rfl⟩ := hd
        simp only [Sock.consume] at hc
        split at hc
        · split at hc
          · simp at hc; subst hc
            refine ⟨h.rd, h.win, ?_, ?_, ?_, h.sockp.trans (List.prefix_append _ _), hb⟩
            · simp only [Sock.emit, inKex_snoc]; exact h.kex
            · simp only [Sock.emit, total_snoc, dataBytes]; exact h.data
            · intro hm
              simp only [Sock.emit, List.mem_append, List.mem_singleton] at hm
              rcases hm with hm | hm
              · exact h.close hm
              · cases hm
          · simp at hc; subst hc; exact ⟨h.rd, h.win, h.kex, h.data, h.close, h.sockp, hb⟩
        · simp at hc

theorem consume_wr {s s' : Sock} {n} (h : s.consume n = some s') : s'.wr = s.wr := by
  simp only [Sock.consume] at h
  split at h
  · split at h
    · simp at h; subst h; rfl
    · simp at h; subst h; rfl
  · simp at h

/-- If not everything is taken, the channel waits for the socket. -/
theorem data_wr {s s' : Sock} {c k n} (h : Sock.ops.data s c k = (s', .ok n)) (hn : n < c.length) : s'.wr = true := by
  cases k with
  | wouldBlock => simp [Sock.ops] at h; obtain ⟨rfl, rfl⟩ := h; rfl
  | failed => simp [Sock.ops] at h
  | wrote m =>
    simp only [Sock.ops] at h
    split at h
    · simp at h
    · rename_i hc
      simp at h; obtain ⟨rfl, rfl⟩ := h
      rw [consume_wr hc]
      simp only [Bool.or_eq_true, decide_eq_true_eq]
      exact .inr hn

theorem data_throws {s s' : Sock} {c k} (h : Sock.ops.data s c k = (s', .error .throws)) : k = .failed := by
  cases k with
  | wouldBlock => simp [Sock.ops] at h
  | failed => rfl
  | wrote m =>
    simp only [Sock.ops] at h
    split at h <;> simp at h

theorem finish_sock (s : Sock) (b : Buf) : (b.finish Sock.ops s).2.2 = none ∧ (b.finish Sock.ops s).2.1.queue = b.queue := by
  unfold Buf.finish
  cases b.eofPending
  · exact ⟨rfl, rfl⟩
  · exact ⟨rfl, rfl⟩

theorem read_wr (ks : List (Nat × Wrote)) : ∀ {s : Sock} {b : Buf},
    (b.read Sock.ops s (ks ++ [(0, .wouldBlock)])).2.2 = none →
    (b.read Sock.ops s (ks ++ [(0, .wouldBlock)])).2.1.queue ≠ [] →
    (b.read Sock.ops s (ks ++ [(0, .wouldBlock)])).1.wr = true := by
  induction ks with
  | nil =>
    intro s b
    simp only [List.nil_append]
    unfold Buf.read
    split
    · rename_i hq
      intro _ h
      rw [(finish_sock s b).2] at h
      exact absurd hq h
    · rename_i hq
      have hl : 0 < (b.queue.take (0 + 1)).length := by
        cases hqq : b.queue with
        | nil => exact absurd hqq hq
        | cons _ _ => simp
      simp only [Sock.ops, if_pos hl]
      simp
  | cons x ks ih =>
    obtain ⟨len, k⟩ := x
    intro s b
    simp only [List.cons_append]
    unfold Buf.read
    split
    · rename_i hq
      intro _ h
      rw [(finish_sock s b).2] at h
      exact absurd hq h
    · simp only
      split
      · simp
      · rename_i g' n hd
        split
        · rename_i hn
          exact fun _ _ => data_wr hd hn
        · exact ih

theorem read_throws (ks : List (Nat × Wrote)) : ∀ {s : Sock} {b : Buf},
    (b.read Sock.ops s ks).2.2 = some .throws → ∃ len, (len, Wrote.failed) ∈ ks := by
  induction ks with
  | nil =>
    intro s b
    unfold Buf.read
    split
    · rw [(finish_sock s b).1]; simp
    · simp
  | cons x ks ih =>
    obtain ⟨len, k⟩ := x
    intro s b
    unfold Buf.read
    split
    · rw [(finish_sock s b).1]; simp
    · simp only
      split
      · rename_i hd
        intro he
        simp only [Option.some.injEq] at he
        subst he
        exact ⟨len, by rw [data_throws hd]; simp⟩
      · split
        · simp
        · intro h
          obtain ⟨l, hl⟩ := ih h
          exact ⟨l, List.mem_cons_of_mem _ hl⟩

/-! ## One event of the channel -/

/-- The channel is in order. -/
structure RlOk (c : SockCh) : Prop where
  seq : c.stop = none → BufSeq c.buf
  pre : BufPre c.buf
  win : c.sock.rd = true → 0 < c.sock.sendWin
  open_ : inKex c.sock.log = false → 0 < c.sock.sendWin → c.sock.rd = true
  wr : c.stop = none → c.buf.queue ≠ [] → c.sock.wr = true
  pend : c.stop = none → c.buf.eofPending = true → c.buf.queue ≠ []

/-- Bytes which can be read. -/
def Model.SockEvent.readable : SockEvent → Nat
  | .ready _ (some (some m)) _ => m + 1
  | _ => 0

/-- The write results end with `EAGAIN`. -/
def Model.SockEvent.complete : SockEvent → Prop
  | .ready (some ks) _ _ => ∃ ks', ks = ks' ++ [(0, .wouldBlock)]
  | _ => True

/-- Why a channel is closed, after reading `d` bytes. -/
def Model.SockEvent.closing (d : Nat) : SockEvent → Prop
  | .error => True
  | .ready _ (some none) _ => True
  | .ready _ (some (some m)) true => d = m + 1
  | _ => False

/-- A `send()` fails. -/
def Model.SockEvent.failing : SockEvent → Prop
  | .recvData _ k => k = .failed
  | .ready (some ks) _ _ => ∃ len, (len, Wrote.failed) ∈ ks
  | _ => False

/-- The client breaks the rules. -/
def Model.SockEvent.breaks (w : Nat) : SockEvent → Prop
  | .recvData bs _ => bs.length > w
  | .recvExt n => n > w
  | .recvAdjust n => n = 0
  | _ => False

structure Did (y : SockCh) (e : SockEvent) (c : SockCh) : Prop where
  ok : RlOk c
  bufp : y.buf.log <+: c.buf.log
  sockp : y.sock.log <+: c.sock.log
  data : total dataBytes c.sock.log ≤ total dataBytes y.sock.log + e.readable
  shut : c.stop = some .channel → e.closing (total dataBytes c.sock.log - total dataBytes y.sock.log)
  conn : c.stop = some .connection → e.breaks y.sock.recvWin ∨ e.failing
  close : IoEntry.tx .close ∈ c.sock.log → IoEntry.tx .close ∈ y.sock.log ∨ c.stop = some .channel

/-- A method of the buffer was called. -/
theorem Did.ofBuf {y : SockCh} {e : SockEvent} (h : RlOk y) {s0 : Sock} {r : Sock × Buf × Option BufStop}
    (hs0 : s0.rd = y.sock.rd ∧ s0.sendWin = y.sock.sendWin ∧ inKex s0.log = inKex y.sock.log ∧
      total dataBytes s0.log = total dataBytes y.sock.log ∧ y.sock.log <+: s0.log ∧
      (IoEntry.tx .close ∈ s0.log → IoEntry.tx .close ∈ y.sock.log))
    (ha : SockAside s0 y.buf r.1 r.2.1) (hp : BufPre r.2.1) (hq : r.2.2 = none → BufSeq r.2.1)
    (hw : r.2.2 = none → r.2.1.queue ≠ [] → r.1.wr = true)
    (hpd : r.2.2 = none → r.2.1.eofPending = true → r.2.1.queue ≠ []) (hc : r.2.2 = some .throws → e.breaks y.sock.recvWin ∨ e.failing) :
    Did y e (SockCh.ofBuf r) := by
  obtain ⟨s, b, st⟩ := r
  obtain ⟨g1, g2, g3, g4, g5, g6⟩ := hs0
  simp only at ha hp hq hw hpd hc
  have hst : st.map BufStop.toIo = none → st = none := by cases st <;> simp
  refine ⟨⟨fun h => hq (hst h), hp, ?_, ?_, fun h => hw (hst h), fun h => hpd (hst h)⟩, ha.bufp, g5.trans ha.sockp, ?_, ?_, ?_, ?_⟩
  · show s.rd = true → 0 < s.sendWin
    rw [ha.rd, ha.win, g1, g2]; exact h.win
  · show inKex s.log = false → 0 < s.sendWin → s.rd = true
    rw [ha.rd, ha.win, ha.kex, g1, g2, g3]; exact h.open_
  · show total dataBytes s.log ≤ _
    rw [ha.data, g4]; exact Nat.le_add_right _ _
  · intro hx
    cases st with
    | none => cases hx
    | some z => cases z <;> cases hx
  · intro hx
    cases st with
    | none => cases hx
    | some z =>
      cases z with
      | throws => exact hc rfl
      | ub => cases hx
  · exact fun hx => .inl (g6 (ha.close hx))

theorem close_facts (y : SockCh) (h : RlOk y) :
    RlOk y.close ∧ total dataBytes y.close.sock.log = total dataBytes y.sock.log ∧ y.sock.log <+: y.close.sock.log := by
  refine ⟨⟨by simp [SockCh.close], h.pre, h.win, ?_, by simp [SockCh.close], by simp [SockCh.close]⟩, ?_, List.prefix_append _ _⟩
  · show inKex (y.sock.log ++ [.tx .close]) = false → _
    rw [inKex_snoc]; exact h.open_
  · show total dataBytes (y.sock.log ++ [.tx .close]) = _
    rw [total_snoc]; rfl

/-- The READ part. -/
theorem onRead_facts {y : SockCh} (h : RlOk y) (hs : y.stop = none) (hrd : y.sock.rd = true) (nd r) :
    RlOk (y.onRead nd r).1 ∧ (y.onRead nd r).1.buf = y.buf ∧ y.sock.log <+: (y.onRead nd r).1.sock.log ∧
    (∀ m, r = some m → (y.onRead nd r).1.stop = none ∧
      total dataBytes (y.onRead nd r).1.sock.log ≤ total dataBytes y.sock.log + (m + 1) ∧
      ((y.onRead nd r).2 = true → total dataBytes (y.onRead nd r).1.sock.log = total dataBytes y.sock.log + (m + 1))) ∧
    (r = none → (y.onRead nd r).1 = y.close) ∧
    (IoEntry.tx .close ∈ (y.onRead nd r).1.sock.log → IoEntry.tx .close ∈ y.sock.log ∨ r = none) := by
  have hw := h.win hrd
  unfold SockCh.onRead
  simp only
  split
  · rename_i h0; exfalso; omega
  · split
    · have := close_facts y h
      exact ⟨this.1, rfl, this.2.2, by simp, fun _ => rfl, fun _ => .inr rfl⟩
    · rename_i m
      refine ⟨⟨fun _ => h.seq hs, h.pre, ?_, ?_, fun _ => h.wr hs, fun _ => h.pend hs⟩, rfl, List.prefix_append _ _, ?_, by simp, ?_⟩
      · simp only [Sock.emit, hrd, Bool.true_and, bne_iff_ne, ne_eq]
        exact Nat.pos_of_ne_zero
      · simp only [Sock.emit, hrd, Bool.true_and, bne_iff_ne, ne_eq]
        exact fun _ hx => Nat.pos_iff_ne_zero.mp hx
      · intro m' hm
        cases hm
        refine ⟨hs, ?_, ?_⟩
        · simp only [Sock.emit, total_snoc, dataBytes]; omega
        · simp only [decide_eq_true_eq, Sock.emit, total_snoc, dataBytes]; omega
      · intro hx
        simp only [Sock.emit, List.mem_append, List.mem_singleton] at hx
        rcases hx with hx | hx
        · exact .inl hx
        · cases hx

theorem onWrite_facts {y : SockCh} (h : RlOk y) (hs : y.stop = none) (w : Option (List (Nat × Wrote)))
    (hc : ∀ ks, w = some ks → ∃ ks', ks = ks' ++ [(0, .wouldBlock)]) (e : SockEvent)
    (hf : ∀ ks, w = some ks → (∃ len, (len, Wrote.failed) ∈ ks) → e.failing) :
    Did y e (y.onWrite w) ∧ (y.onWrite w).sock.rd = y.sock.rd ∧
      total dataBytes (y.onWrite w).sock.log = total dataBytes y.sock.log ∧
      (IoEntry.tx .close ∈ (y.onWrite w).sock.log → IoEntry.tx .close ∈ y.sock.log) := by
  cases w with
  | none =>
    refine ⟨⟨h, List.prefix_refl _, List.prefix_refl _, Nat.le_add_right _ _, ?_, ?_, fun hx => .inl hx⟩, rfl, rfl, id⟩
    · intro hx; exact absurd (hs.symm.trans hx) (by simp)
    · intro hx; exact absurd (hs.symm.trans hx) (by simp)
  | some ks =>
    obtain ⟨ks', hks⟩ := hc ks rfl
    have hseq : BufSeq (y.buf.read Sock.ops { y.sock with wr := false } ks).2.1 := (h.seq hs).read ks
    have ha := (SockAside.keeps { y.sock with wr := false } y.buf).read (ks := ks)
      (SockAside.refl { y.sock with wr := false } y.buf)
    refine ⟨Did.ofBuf (s0 := { y.sock with wr := false }) h ⟨rfl, rfl, rfl, rfl, List.prefix_refl _, id⟩ ha hseq.toPre (fun _ => hseq) ?_ (read_pend ks) ?_, ha.rd, ha.data, ha.close⟩
    · rw [hks]; exact read_wr ks'
    · intro ht
      exact .inr (hf ks rfl (read_throws ks ht))

theorem onReady_facts {y : SockCh} (h : RlOk y) (hs : y.stop = none) (nd) (w r hup) (w' r')
    (hw' : w' = none ∨ w' = w) (hr' : r' = none ∨ (y.sock.rd = true ∧ r' = r))
    (hc : (SockEvent.ready w r hup).complete) : Did y (.ready w r hup) (y.onReady nd w' r' hup) := by
  obtain ⟨hd, hrd, hdt, hcl⟩ := onWrite_facts h hs w' (by
    intro ks hks
    rcases hw' with hw' | hw'
    · rw [hw'] at hks; cases hks
    · rw [hw'] at hks; subst hks; exact hc) (.ready w r hup) (by
    intro ks hks hf
    rcases hw' with hw' | hw'
    · rw [hw'] at hks; cases hks
    · rw [hw'] at hks; subst hks; exact hf)
  unfold SockCh.onReady
  generalize y.onWrite w' = y1 at *
  cases hs1 : y1.stop with
  | some z => exact hd
  | none =>
    rcases hr' with rfl | ⟨hyr, rfl⟩
    · simp only [SockCh.maybeRead, SockCh.onHup, hs1, Bool.and_false, cond_false]
      exact hd
    · cases r' with
      | none =>
        simp only [SockCh.maybeRead, SockCh.onHup, hs1, Bool.and_false, cond_false]
        exact hd
      | some r =>
        obtain ⟨f1, f2, f3, f4, f5, f6⟩ := onRead_facts hd.ok hs1 (hrd.trans hyr) nd r
        cases r with
        | none =>
          have hcf := close_facts y1 hd.ok
          simp only [SockCh.maybeRead, SockCh.onHup]
          rw [f5 rfl]
          refine ⟨hcf.1, hd.bufp, hd.sockp.trans hcf.2.2, ?_, fun _ => trivial, ?_, fun _ => .inr rfl⟩
          · rw [show y1.close.stop = some .channel from rfl]
            simp only
            rw [hcf.2.1, hdt]; exact Nat.le_add_right _ _
          · intro hx
            cases hx
        | some m =>
          obtain ⟨g1, g2, g3⟩ := f4 m rfl
          simp only [SockCh.maybeRead, SockCh.onHup]
          rw [g1]
          simp only
          generalize hz : y1.onRead nd (some m) = z at *
          have hnc : IoEntry.tx .close ∈ z.1.sock.log → IoEntry.tx .close ∈ y.sock.log := by
            intro hx
            rcases f6 hx with hx | hx
            · exact hcl hx
            · cases hx
          cases hh : (hup && z.2)
          · simp only [cond_false]
            refine ⟨f1, hd.bufp.trans (by rw [f2]; exact List.prefix_refl _), hd.sockp.trans f3, ?_, ?_, ?_, fun hx => .inl (hnc hx)⟩
            · rw [← hdt]; exact g2
            · intro hx; exact absurd (g1.symm.trans hx) (by simp)
            · intro hx; exact absurd (g1.symm.trans hx) (by simp)
          · simp only [cond_true]
            rw [Bool.and_eq_true] at hh
            have hcf := close_facts z.1 f1
            refine ⟨hcf.1, hd.bufp.trans (by rw [← f2]; exact List.prefix_refl _), (hd.sockp.trans f3).trans hcf.2.2, ?_, ?_, ?_,
              fun _ => .inr rfl⟩
            · rw [hcf.2.1, ← hdt]; exact g2
            · intro _
              rw [hcf.2.1, g3 hh.2, hh.1, hdt]
              show _ = m + 1
              omega
            · intro hx
              cases hx

theorem handle_did {y : SockCh} (h : RlOk y) (hs : y.stop = none) (nd) (e : SockEvent) (hc : e.complete) :
    Did y e (y.handle nd e) := by
  have hstay : ∀ z : IoStop, z = .connection → e.breaks y.sock.recvWin → Did y e { y with stop := some z } := by
    intro z hz hb
    subst hz
    refine ⟨⟨by simp, h.pre, h.win, h.open_, by simp, by simp⟩, List.prefix_refl _, List.prefix_refl _, Nat.le_add_right _ _, ?_,
      fun _ => .inl hb, fun hx => .inl hx⟩
    intro hx; cases hx
  cases e with
  | recvData bs k =>
    simp only [SockCh.handle]
    split
    · rename_i hb; exact hstay _ rfl hb
    · obtain ⟨h1, h2⟩ := (h.seq hs).onData (ops := Sock.ops) (g := y.sock.emit (.rx (.data bs.length))) (pl := bs) (k := k)
      have ha := (SockAside.keeps (y.sock.emit (.rx (.data bs.length))) y.buf).onData (b := y.buf) (pl := bs) (k := k)
        ⟨rfl, rfl, rfl, rfl, id, List.prefix_refl _, List.prefix_append _ _⟩
        (fun h => ⟨h.rd, h.win, h.kex, h.data, h.close, h.sockp, h.bufp⟩)
      refine Did.ofBuf (s0 := y.sock.emit (.rx (.data bs.length))) h ⟨rfl, rfl, ?_, ?_, List.prefix_append _ _, ?_⟩ ha h1 h2 ?_ ?_ ?_
      · simp only [Sock.emit, inKex_snoc]; rfl
      · simp only [Sock.emit, total_snoc]; rfl
      · intro hm
        simp only [Sock.emit, List.mem_append, List.mem_singleton] at hm
        rcases hm with hm | hm
        · exact hm
        · cases hm
      · unfold Buf.onData
        simp only
        cases (y.buf.emit (.recv bs)).eofPending
        · simp only [cond_false]
          split
          · rename_i hq
            intro _ _
            exact h.wr hs (by simpa [Buf.emit] using hq)
          · split
            · simp
            · rename_i g' n hd
              intro _ hq
              refine data_wr hd ?_
              simp only [ne_eq, List.drop_eq_nil_iff] at hq
              omega
        · simp
      · unfold Buf.onData
        simp only
        cases hp : (y.buf.emit (.recv bs)).eofPending
        · simp only [cond_false]
          have hp' : y.buf.eofPending = false := hp
          split
          · exact fun _ hx => absurd hx Bool.false_ne_true
          · split
            · simp
            · exact fun _ hx => absurd (hp'.symm.trans hx) Bool.false_ne_true
        · simp
      · unfold Buf.onData
        simp only
        cases (y.buf.emit (.recv bs)).eofPending
        · simp only [cond_false]
          split
          · simp
          · split
            · rename_i hd
              intro he
              simp only [Option.some.injEq] at he
              subst he
              exact .inr (data_throws hd)
            · simp
        · simp
  | recvExt n =>
    simp only [SockCh.handle]
    split
    · rename_i hb; exact hstay _ rfl hb
    · refine ⟨⟨fun _ => h.seq hs, h.pre, h.win, ?_, fun _ => h.wr hs, fun _ => h.pend hs⟩, List.prefix_refl _, List.prefix_append _ _, ?_, ?_, ?_, ?_⟩
      · simp only [Sock.emit, inKex_snoc]; exact h.open_
      · simp only [Sock.emit, total_snoc]; exact Nat.le_add_right _ _
      · intro hx; exact absurd (hs.symm.trans hx) (by simp)
      · intro hx; exact absurd (hs.symm.trans hx) (by simp)
      · intro hm
        simp only [Sock.emit, List.mem_append, List.mem_singleton] at hm
        rcases hm with hm | hm
        · exact .inl hm
        · cases hm
  | recvEof =>
    simp only [SockCh.handle]
    have h1 : BufSeq _ := (h.seq hs).onEof (ops := Sock.ops) (g := y.sock.emit (.rx .eof))
    have ha := (SockAside.keeps (y.sock.emit (.rx .eof)) y.buf).onEof (b := y.buf)
      ⟨rfl, rfl, rfl, rfl, id, List.prefix_refl _, List.prefix_append _ _⟩
      (fun h => ⟨h.rd, h.win, h.kex, h.data, h.close, h.sockp, h.bufp⟩)
    refine Did.ofBuf (s0 := y.sock.emit (.rx .eof)) h ⟨rfl, rfl, ?_, ?_, List.prefix_append _ _, ?_⟩ ha h1.toPre (fun _ => h1) ?_ ?_ ?_
    · simp only [Sock.emit, inKex_snoc]; rfl
    · simp only [Sock.emit, total_snoc]; rfl
    · intro hm
      simp only [Sock.emit, List.mem_append, List.mem_singleton] at hm
      rcases hm with hm | hm
      · exact hm
      · cases hm
    · unfold Buf.onEof
      simp only
      cases (y.buf.emit .recvEof).eofPending
      · simp only [cond_false]
        split
        · rename_i hq
          intro _ hx
          exact absurd hq hx
        · rename_i hq
          intro _ _
          exact h.wr hs (by simpa [Buf.emit] using hq)
      · simp
    · unfold Buf.onEof
      simp only
      cases hp : (y.buf.emit .recvEof).eofPending
      · simp only [cond_false]
        have hp' : y.buf.eofPending = false := hp
        split
        · exact fun _ hx => absurd (hp'.symm.trans hx) Bool.false_ne_true
        · rename_i hq
          exact fun _ _ => hq
      · simp
    · unfold Buf.onEof
      simp only
      cases (y.buf.emit .recvEof).eofPending
      · simp only [cond_false]
        split <;> simp
      · simp
  | recvAdjust n =>
    simp only [SockCh.handle]
    split
    · rename_i hb; exact hstay _ rfl hb
    · rename_i hn
      refine ⟨⟨fun _ => h.seq hs, h.pre, ?_, ?_, fun _ => h.wr hs, fun _ => h.pend hs⟩, List.prefix_refl _, List.prefix_append _ _, ?_, ?_, ?_, ?_⟩
      · intro _; show 0 < y.sock.sendWin + n; omega
      · simp only [Sock.emit, inKex_snoc, inKexStep, Option.getD_none]
        intro hrk _
        by_cases h0 : y.sock.sendWin = 0
        · simp [h0]
        · rw [h.open_ hrk (by omega)]; rfl
      · simp only [Sock.emit, total_snoc]; exact Nat.le_add_right _ _
      · intro hx; exact absurd (hs.symm.trans hx) (by simp)
      · intro hx; exact absurd (hs.symm.trans hx) (by simp)
      · intro hm
        simp only [Sock.emit, List.mem_append, List.mem_singleton] at hm
        rcases hm with hm | hm
        · exact .inl hm
        · cases hm
  | blocked =>
    have hrk : inKex (y.sock.log ++ [.kexinit]) = true := by rw [inKex_snoc]; rfl
    refine ⟨⟨fun _ => h.seq hs, h.pre, ?_, ?_, fun _ => h.wr hs, fun _ => h.pend hs⟩, List.prefix_refl _, List.prefix_append _ _, ?_, ?_, ?_, ?_⟩
    · simp only [SockCh.handle, Sock.emit]
      intro hrd
      rw [Bool.and_eq_true] at hrd
      exact h.win hrd.1
    · simp only [SockCh.handle, Sock.emit, hrk]; simp
    · simp only [SockCh.handle, Sock.emit, total_snoc]; exact Nat.le_add_right _ _
    · intro hx; exact absurd (hs.symm.trans hx) (by simp)
    · intro hx; exact absurd (hs.symm.trans hx) (by simp)
    · intro hm
      simp only [SockCh.handle, Sock.emit, List.mem_append, List.mem_singleton] at hm
      rcases hm with hm | hm
      · exact .inl hm
      · cases hm
  | unblocked =>
    refine ⟨⟨fun _ => h.seq hs, h.pre, ?_, ?_, fun _ => h.wr hs, fun _ => h.pend hs⟩, List.prefix_refl _, List.prefix_append _ _, ?_, ?_, ?_, ?_⟩
    · simp only [SockCh.handle, Sock.emit]
      intro hrd
      rw [Bool.or_eq_true] at hrd
      rcases hrd with hrd | hrd
      · exact h.win hrd
      · exact of_decide_eq_true hrd
    · simp only [SockCh.handle, Sock.emit]
      intro _ h0
      simp [h0]
    · simp only [SockCh.handle, Sock.emit, total_snoc]; exact Nat.le_add_right _ _
    · intro hx; exact absurd (hs.symm.trans hx) (by simp)
    · intro hx; exact absurd (hs.symm.trans hx) (by simp)
    · intro hm
      simp only [SockCh.handle, Sock.emit, List.mem_append, List.mem_singleton] at hm
      rcases hm with hm | hm
      · exact .inl hm
      · cases hm
  | error =>
    simp only [SockCh.handle]
    cases (y.sock.rd || y.sock.wr)
    · refine ⟨h, List.prefix_refl _, List.prefix_refl _, Nat.le_add_right _ _, ?_, ?_, fun hx => .inl hx⟩
      · intro hx; exact absurd (hs.symm.trans hx) (by simp)
      · intro hx; exact absurd (hs.symm.trans hx) (by simp)
    · have hcf := close_facts y h
      refine ⟨hcf.1, List.prefix_refl _, hcf.2.2, ?_, fun _ => trivial, ?_, fun _ => .inr rfl⟩
      · rw [cond_true, hcf.2.1]; exact Nat.le_add_right _ _
      · intro hx; cases hx
  | ready w r hup =>
    simp only [SockCh.handle]
    refine onReady_facts h hs nd w r hup _ _ ?_ ?_ hc
    · cases y.sock.wr
      · exact .inl rfl
      · exact .inr rfl
    · cases y.sock.rd
      · exact .inl rfl
      · exact .inr ⟨rfl, rfl⟩

theorem RlOk.init {w} (hw : 0 < w) : RlOk (SockCh.init w) :=
  ⟨fun _ => ⟨rfl, by simp [SockCh.init], by simp [SockCh.init], by intro a b h; simp [SockCh.init] at h⟩,
    ⟨List.prefix_refl _, by intro a b h; simp [SockCh.init] at h⟩, fun _ => hw, fun _ _ => rfl, by simp [SockCh.init], by simp [SockCh.init]⟩

end Lukko
