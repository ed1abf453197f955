import Verif.Model.SocketChannel
import Verif.Proof.Buffered
import Verif.Proof.Lists
/-
  Invariants of a channel connected to a socket.
-/
namespace Lukko
open Model Spec

variable {γ κ : Type} {ops : BufOps γ κ}

/-! ## Counting bytes in the buffer -/

/-- Bytes bufBytes are either taken or in the queue. -/
def BufCnt (b : Buf) : Prop := (taken b.log).length + b.queue.length = (bufBytes b.log).length

theorem BufCnt.onData {b : Buf} (h : BufCnt b) (g : γ) (pl : Bytes) (k : κ)
    (hs : (b.onData ops g pl k).2.2 = none) : BufCnt (b.onData ops g pl k).2.1 := by
  unfold BufCnt at h
  revert hs
  unfold Buf.onData
  simp only
  cases (b.emit (.recv pl)).eofPending
  · simp only [cond_false]
    split
    · intro _
      simp only [BufCnt, Buf.emit, taken_snoc, bufBytes_snoc, List.length_append, List.length_nil]; omega
    · rename_i hq
      have hq : b.queue = [] := by simpa [Buf.emit] using hq
      split
      · simp
      · intro _
        simp only [BufCnt, Buf.emit, taken_snoc, bufBytes_snoc, List.length_append, List.length_nil,
          List.length_take, List.length_drop]
        rw [hq] at h; simp at h; omega
  · simp

theorem BufCnt.onEof {b : Buf} (h : BufCnt b) (g : γ)
    (_ : (b.onEof ops g).2.2 = none) : BufCnt (b.onEof ops g).2.1 := by
  unfold BufCnt at h
  unfold Buf.onEof
  simp only
  cases (b.emit .recvEof).eofPending
  · simp only [cond_false]
    split <;> simp only [BufCnt, Buf.emit, taken_snoc, bufBytes_snoc, List.length_append, List.length_nil] <;> omega
  · simp only [cond_true, BufCnt, Buf.emit, taken_snoc, bufBytes_snoc, List.length_append, List.length_nil]; omega

theorem BufCnt.read {ks : List (Nat × κ)} : ∀ {b : Buf}, BufCnt b → ∀ g : γ, BufCnt (b.read ops g ks).2.1 := by
  have hfin : ∀ {b : Buf} {g : γ}, BufCnt b → BufCnt (b.finish ops g).2.1 := by
    intro b g h
    unfold BufCnt at h
    unfold Buf.finish
    cases b.eofPending
    · exact h
    · simp only [cond_true, BufCnt, Buf.emit, taken_snoc, bufBytes_snoc, List.length_append, List.length_nil]; omega
  induction ks with
  | nil =>
    intro b h g
    unfold Buf.read
    split
    · exact hfin h
    · exact h
  | cons x ks ih =>
    obtain ⟨len, k⟩ := x
    intro b h g
    unfold Buf.read
    split
    · exact hfin h
    · simp only
      split
      · exact h
      · rename_i g' n _
        have hn : BufCnt { b.emit (.took ((b.queue.take (len + 1)).take n)) with
            queue := b.queue.drop ((b.queue.take (len + 1)).take n).length } := by
          unfold BufCnt at h
          simp only [BufCnt, Buf.emit, taken_snoc, bufBytes_snoc, List.length_append, List.length_nil,
            List.length_drop, List.length_take]
          omega
        split
        · exact hn
        · exact ih hn g'

/-! ## A relation between buffer and consumer -/

/-- A relation that is kept by the methods of the consumer. -/
structure Keeps (ops : BufOps γ κ) (P : γ → Buf → Prop) : Prop where
  data : ∀ {g b} c k {n g' q}, P g b → ops.data g c k = (g', .ok n) → P g' { b.emit (.took (c.take n)) with queue := q }
  stop : ∀ {g b} c k {e g'}, P g b → ops.data g c k = (g', .error e) → P g' b
  eof : ∀ {g b q}, P g b → P (ops.eof g) { b.emit .sawEof with eofPending := q }

theorem Keeps.finish {P} (h : Keeps ops P) {g : γ} {b : Buf} (hp : P g b) :
    P (b.finish ops g).1 (b.finish ops g).2.1 := by
  unfold Buf.finish
  cases b.eofPending
  · exact hp
  · exact h.eof hp

theorem Keeps.read {P} (h : Keeps ops P) {ks : List (Nat × κ)} : ∀ {g : γ} {b : Buf}, P g b →
    P (b.read ops g ks).1 (b.read ops g ks).2.1 := by
  induction ks with
  | nil =>
    intro g b hp
    unfold Buf.read
    split
    · exact h.finish hp
    · exact hp
  | cons x ks ih =>
    obtain ⟨len, k⟩ := x
    intro g b hp
    unfold Buf.read
    split
    · exact h.finish hp
    · simp only
      split
      · rename_i hd; exact h.stop _ _ hp hd
      · rename_i hd
        split
        · exact h.data _ _ hp hd
        · exact ih (h.data _ _ hp hd)

theorem Keeps.onData {P} (h : Keeps ops P) {g : γ} {b : Buf} {pl k} (hp : P g (b.emit (.recv pl)))
    (hq : ∀ {g b q e}, P g b → P g { b with queue := q, eofPending := e }) :
    P (b.onData ops g pl k).1 (b.onData ops g pl k).2.1 := by
  unfold Buf.onData
  simp only
  cases (b.emit (.recv pl)).eofPending
  · simp only [cond_false]
    split
    · exact hq hp
    · split
      · rename_i hd; exact h.stop _ _ hp hd
      · rename_i hd; exact h.data _ _ hp hd
  · exact hp

theorem Keeps.onEof {P} (h : Keeps ops P) {g : γ} {b : Buf} (hp : P g (b.emit .recvEof))
    (hq : ∀ {g b q}, P g b → P g { b with eofPending := q }) :
    P (b.onEof ops g).1 (b.onEof ops g).2.1 := by
  unfold Buf.onEof
  simp only
  cases (b.emit .recvEof).eofPending
  · simp only [cond_false]
    split
    · exact h.eof hp
    · exact hq hp
  · exact hp

/-! ## The channel -/

theorem total_snoc (f : IoEntry → Nat) (log : List IoEntry) (e) : total f (log ++ [e]) = total f log + f e := by
  simp [total]

theorem inKex_snoc (log : List IoEntry) (e) : inKex (log ++ [e]) = (inKexStep (inKex log) e).getD (inKex log) := by
  simp [inKex]

/-- Extended data that was bufBytes (and thrown away). -/
def extBytes : IoEntry → Nat
  | .rx (.ext n) => n
  | _ => 0

/-- Book-keeping of both windows; `w` is the initial window. -/
structure SockAcc (w : Nat) (s : Sock) (b : Buf) : Prop where
  send : total IoEntry.sentBytes s.log + s.sendWin = w + total IoEntry.granted s.log
  recv : s.recvWin + (taken b.log).length + total extBytes s.log = RECEIVE_WINDOW + total IoEntry.weGranted s.log
  got : total IoEntry.gotBytes s.log = (bufBytes b.log).length + total extBytes s.log
  le : s.recvWin ≤ RECEIVE_WINDOW

theorem SockAcc.keeps (w : Nat) : Keeps Sock.ops (SockAcc w) where
  eof := by
    intro g b q h
    refine ⟨h.send, ?_, ?_, h.le⟩
    · have := h.recv; simpa [Buf.emit, taken_snoc, Sock.ops] using this
    · have := h.got; simpa [Buf.emit, bufBytes_snoc, Sock.ops] using this
  stop := by
    intro g b c k e g' h hd
    cases k with
    | wouldBlock => simp [Sock.ops] at hd
    | failed => simp [Sock.ops] at hd; obtain ⟨rfl, _⟩ := hd; exact h
    | wrote m =>
      simp only [Sock.ops] at hd
      split at hd
      · simp at hd; obtain ⟨rfl, _⟩ := hd; exact ⟨h.send, h.recv, h.got, h.le⟩
      · simp at hd
  data := by
    intro g b c k n g' q h hd
    cases k with
    | wouldBlock =>
      simp [Sock.ops] at hd; obtain ⟨rfl, rfl⟩ := hd
      refine ⟨h.send, ?_, ?_, h.le⟩
      · have := h.recv; simpa [Buf.emit, taken_snoc] using this
      · have := h.got; simpa [Buf.emit, bufBytes_snoc] using this
    | failed => simp [Sock.ops] at hd
    | wrote m =>
      simp only [Sock.ops] at hd
      split at hd
      · simp at hd
      · rename_i s' hc
        simp at hd; obtain ⟨rfl, rfl⟩ := hd
        have h1 := h.send; have h2 := h.recv; have h3 := h.got; have h4 := h.le
        have htl : (c.take (min m c.length)).length = min m c.length := by simp only [List.length_take]; omega
        simp only [Sock.consume] at hc
        split at hc
        · rename_i hle
          split at hc
          · simp at hc; subst hc
            constructor
            · simp only [Sock.emit, total_snoc, IoEntry.sentBytes, IoEntry.granted]; omega
            · simp only [Sock.emit, Buf.emit, total_snoc, extBytes, IoEntry.weGranted, taken_snoc, List.length_append, htl] at *
              omega
            · simp only [Sock.emit, Buf.emit, total_snoc, IoEntry.gotBytes, extBytes, bufBytes_snoc, List.append_nil]; omega
            · exact Nat.le_refl _
          · simp at hc; subst hc
            constructor
            · exact h1
            · simp only [Buf.emit, taken_snoc, List.length_append, htl] at *
              omega
            · simp only [Buf.emit, bufBytes_snoc, List.append_nil]; exact h3
            · simp only at *; omega
        · simp at hc

/-- What the consumer does not touch. -/
def SockSame (rd : Bool) (sw : Nat) (rk : Bool) (s : Sock) (_ : Buf) : Prop :=
  s.rd = rd ∧ s.sendWin = sw ∧ inKex s.log = rk

theorem SockSame.keeps (rd sw rk) : Keeps Sock.ops (SockSame rd sw rk) where
  eof := fun h => h
  stop := by
    intro g b c k e g' h hd
    cases k with
    | wouldBlock => simp [Sock.ops] at hd
    | failed => simp [Sock.ops] at hd; obtain ⟨rfl, _⟩ := hd; exact h
    | wrote m =>
      simp only [Sock.ops] at hd
      split at hd
      · simp at hd; obtain ⟨rfl, _⟩ := hd; exact h
      · simp at hd
  data := by
    intro g b c k n g' q h hd
    cases k with
    | wouldBlock => simp [Sock.ops] at hd; obtain ⟨rfl, rfl⟩ := hd; exact h
    | failed => simp [Sock.ops] at hd
    | wrote m =>
      simp only [Sock.ops] at hd
      split at hd
      · simp at hd
      · rename_i s' hc
        simp at hd; obtain ⟨rfl, rfl⟩ := hd
        simp only [Sock.consume] at hc
        split at hc
        · split at hc
          · simp at hc; subst hc
            exact ⟨h.1, h.2.1, by simp only [Sock.emit, inKex_snoc]; exact h.2.2⟩
          · simp at hc; subst hc; exact h
        · simp at hc

end Lukko

namespace Lukko
open Model Spec

/-- No data was sent between our KEXINIT and our NEWKEYS. -/
def dataQuiet (log : List IoEntry) : Prop :=
  ∀ a e b, log = a ++ e :: b → 0 < e.sentBytes → inKex a = false

theorem dataQuiet_snoc {log e} (h : dataQuiet log) (he : 0 < e.sentBytes → inKex log = false) : dataQuiet (log ++ [e]) := by
  intro a e' b hs hp
  rcases Aux.snoc_split hs with ⟨_, rfl, rfl⟩ | ⟨b', _, h2⟩
  · exact he hp
  · exact h a e' b' h2 hp

theorem dataQuiet_nil : dataQuiet [] := by intro a e b h; simp at h

def SockQuiet (rd : Bool) (sw : Nat) (rk : Bool) (s : Sock) (b : Buf) : Prop := SockSame rd sw rk s b ∧ dataQuiet s.log

theorem SockQuiet.keeps (rd sw rk) : Keeps Sock.ops (SockQuiet rd sw rk) where
  eof := fun h => ⟨(SockSame.keeps rd sw rk).eof (q := false) h.1, h.2⟩
  stop := by
    intro g b c k e g' h hd
    refine ⟨(SockSame.keeps rd sw rk).stop c k h.1 hd, ?_⟩
    cases k with
    | wouldBlock => simp [Sock.ops] at hd
    | failed => simp [Sock.ops] at hd; obtain ⟨rfl, _⟩ := hd; exact h.2
    | wrote m =>
      simp only [Sock.ops] at hd
      split at hd
      · simp at hd; obtain ⟨rfl, _⟩ := hd; exact h.2
      · simp at hd
  data := by
    intro g b c k n g' q h hd
    refine ⟨(SockSame.keeps rd sw rk).data (q := q) c k h.1 hd, ?_⟩
    cases k with
    | wouldBlock => simp [Sock.ops] at hd; obtain ⟨rfl, rfl⟩ := hd; exact h.2
    | failed => simp [Sock.ops] at hd
    | wrote m =>
      simp only [Sock.ops] at hd
      split at hd
      · simp at hd
      · rename_i s' hc
        simp at hd; obtain ⟨rfl, rfl⟩ := hd
        simp only [Sock.consume] at hc
        split at hc
        · split at hc
          · simp at hc; subst hc
            exact dataQuiet_snoc h.2 (by simp [IoEntry.sentBytes])
          · simp at hc; subst hc; exact h.2
        · simp at hc

/-! ### Accounting over a whole run -/

structure SockChInv (w : Nat) (y : SockCh) : Prop where
  acc : SockAcc w y.sock y.buf
  cnt : y.stop = none → BufCnt y.buf

theorem SockChInv.ofBuf {w} {r : Sock × Buf × Option BufStop} (h1 : SockAcc w r.1 r.2.1) (h2 : r.2.2 = none → BufCnt r.2.1) :
    SockChInv w (SockCh.ofBuf r) := by
  obtain ⟨s, b, st⟩ := r
  refine ⟨h1, fun h => h2 ?_⟩
  simpa [SockCh.ofBuf] using h

theorem SockAcc.emit {w s b e} (h : SockAcc w s b) (h1 : e.sentBytes = 0) (h2 : e.granted = 0) (h3 : e.weGranted = 0)
    (h4 : extBytes e = 0) (h5 : e.gotBytes = 0) : SockAcc w (s.emit e) b := by
  obtain ⟨a1, a2, a3, a4⟩ := h
  constructor
  · simp only [Sock.emit, total_snoc, h1, h2]; omega
  · simp only [Sock.emit, total_snoc, h3, h4]; omega
  · simp only [Sock.emit, total_snoc, h4, h5]; omega
  · exact a4

theorem SockChInv.close {w y} (h : SockChInv w y) : SockChInv w y.close :=
  ⟨h.acc.emit rfl rfl rfl rfl rfl, by simp [SockCh.close]⟩

theorem SockChInv.onRead {w y} (h : SockChInv w y) (hy : y.stop = none) (nd r) : SockChInv w (y.onRead nd r).1 := by
  unfold SockCh.onRead
  simp only
  split
  · cases nd
    · exact ⟨h.acc, by simp⟩
    · exact h.close
  · split
    · exact h.close
    · rename_i m
      obtain ⟨a1, a2, a3, a4⟩ := h.acc
      refine ⟨⟨?_, ?_, ?_, a4⟩, fun _ => h.cnt hy⟩
      · simp only [Sock.emit, total_snoc, IoEntry.sentBytes, IoEntry.granted]; omega
      · simp only [Sock.emit, total_snoc, IoEntry.weGranted, extBytes]; omega
      · simp only [Sock.emit, total_snoc, IoEntry.gotBytes, extBytes]; omega

theorem SockChInv.onHup {w z} (h : SockChInv w z.1) (hup) : SockChInv w (SockCh.onHup hup z) := by
  obtain ⟨y2, empty⟩ := z
  unfold SockCh.onHup
  simp only
  split
  · exact h
  · cases (hup && empty)
    · exact h
    · exact h.close

theorem SockChInv.onReady {w y} (h : SockChInv w y) (hy : y.stop = none) (nd wk r hup) :
    SockChInv w (y.onReady nd wk r hup) := by
  unfold SockCh.onReady
  have h1 : SockChInv w (y.onWrite wk) := by
    cases wk with
    | none => exact h
    | some ks =>
      refine SockChInv.ofBuf ?_ fun _ => (h.cnt hy).read _
      exact (SockAcc.keeps w).read (g := { y.sock with wr := false }) ⟨h.acc.send, h.acc.recv, h.acc.got, h.acc.le⟩
  generalize y.onWrite wk = y1 at *
  cases hs1 : y1.stop with
  | some _ => exact h1
  | none =>
    refine SockChInv.onHup ?_ hup
    cases r with
    | none => exact h1
    | some r => exact h1.onRead hs1 nd r

theorem SockChInv.handle {w y} (h : SockChInv w y) (hy : y.stop = none) (nd ev) : SockChInv w (y.handle nd ev) := by
  obtain ⟨a1, a2, a3, a4⟩ := h.acc
  cases ev with
  | recvData bs k =>
    simp only [SockCh.handle]
    split
    · exact ⟨h.acc, by simp⟩
    · refine SockChInv.ofBuf ((SockAcc.keeps w).onData ?_ fun h => ⟨h.send, h.recv, h.got, h.le⟩) fun hs => (h.cnt hy).onData _ _ _ hs
      refine ⟨?_, ?_, ?_, a4⟩
      · simp only [Sock.emit, total_snoc, IoEntry.sentBytes, IoEntry.granted]; omega
      · simp only [Sock.emit, Buf.emit, total_snoc, IoEntry.weGranted, extBytes, taken_snoc, List.append_nil]; omega
      · simp only [Sock.emit, Buf.emit, total_snoc, IoEntry.gotBytes, extBytes, bufBytes_snoc, List.length_append]; omega
  | recvExt n =>
    simp only [SockCh.handle]
    split
    · exact ⟨h.acc, by simp⟩
    · refine ⟨⟨?_, ?_, ?_, ?_⟩, fun _ => h.cnt hy⟩
      · simp only [Sock.emit, total_snoc, IoEntry.sentBytes, IoEntry.granted]; omega
      · simp only [Sock.emit, total_snoc, IoEntry.weGranted, extBytes]; omega
      · simp only [Sock.emit, total_snoc, IoEntry.gotBytes, extBytes]; omega
      · simp only; omega
  | recvEof =>
    simp only [SockCh.handle]
    refine SockChInv.ofBuf ((SockAcc.keeps w).onEof ?_ fun h => ⟨h.send, h.recv, h.got, h.le⟩) fun hs => (h.cnt hy).onEof _ hs
    refine ⟨?_, ?_, ?_, a4⟩
    · simp only [Sock.emit, total_snoc, IoEntry.sentBytes, IoEntry.granted]; omega
    · simp only [Sock.emit, Buf.emit, total_snoc, IoEntry.weGranted, extBytes, taken_snoc, List.append_nil]; omega
    · simp only [Sock.emit, Buf.emit, total_snoc, IoEntry.gotBytes, extBytes, bufBytes_snoc, List.length_append, List.length_nil]; omega
  | recvAdjust n =>
    simp only [SockCh.handle]
    split
    · exact ⟨h.acc, by simp⟩
    · refine ⟨⟨?_, ?_, ?_, a4⟩, fun _ => h.cnt hy⟩
      · simp only [Sock.emit, total_snoc, IoEntry.sentBytes, IoEntry.granted]; omega
      · simp only [Sock.emit, total_snoc, IoEntry.weGranted, extBytes]; omega
      · simp only [Sock.emit, total_snoc, IoEntry.gotBytes, extBytes]; omega
  | blocked =>
    have := h.acc.emit (e := .kexinit) rfl rfl rfl rfl rfl
    exact ⟨⟨this.send, this.recv, this.got, this.le⟩, fun _ => h.cnt hy⟩
  | unblocked =>
    have := h.acc.emit (e := .newkeys) rfl rfl rfl rfl rfl
    exact ⟨⟨this.send, this.recv, this.got, this.le⟩, fun _ => h.cnt hy⟩
  | error =>
    simp only [SockCh.handle]
    cases (y.sock.rd || y.sock.wr)
    · exact h
    · exact h.close
  | ready wk r hup =>
    exact h.onReady hy _ _ _ _

theorem SockChInv.step {w y} (h : SockChInv w y) (nd ev) : SockChInv w (y.step nd ev) := by
  unfold SockCh.step
  split
  · exact h
  · rename_i hs; exact h.handle hs nd ev

theorem SockChInv.init (w) : SockChInv w (SockCh.init w) :=
  ⟨⟨by simp [SockCh.init, total], by simp [SockCh.init, total, taken], by simp [SockCh.init, total, bufBytes], by simp [SockCh.init]⟩,
    fun _ => by simp [SockCh.init, BufCnt, taken, bufBytes]⟩

theorem sock_run (nd w) (evs : List SockEvent) : SockChInv w (SockCh.run nd (SockCh.init w) evs) := by
  suffices ∀ y, SockChInv w y → SockChInv w (SockCh.run nd y evs) from this _ (.init w)
  induction evs with
  | nil => exact fun y h => h
  | cons ev evs ih => exact fun y h => ih _ (h.step nd ev)

theorem SockCh.run_snoc {nd y evs ev} : SockCh.run nd y (evs ++ [ev]) = (SockCh.run nd y evs).step nd ev := by
  simp [SockCh.run]

/-! ### Reads are scheduled only when data may be sent -/

/-- `gate`: reads are scheduled only with a positive window and not while a key
exchange is in progress. -/
structure SockGate (y : SockCh) : Prop where
  win : y.sock.rd = true → 0 < y.sock.sendWin
  rk : y.sock.rd = true → inKex y.sock.log = false
  open_ : 0 < y.sock.sendWin → inKex y.sock.log = false → y.sock.rd = true
  quiet : dataQuiet y.sock.log

theorem SockGate.close {y} (h : SockGate y) : SockGate y.close :=
  ⟨h.win, by simp only [SockCh.close, Sock.emit, inKex_snoc]; exact h.rk,
    by simp only [SockCh.close, Sock.emit, inKex_snoc]; exact h.open_,
    dataQuiet_snoc h.quiet (by simp [IoEntry.sentBytes])⟩

theorem SockGate.of_quiet {y : SockCh} (h : SockGate y) {r : Sock × Buf × Option BufStop}
    (hr : SockQuiet y.sock.rd y.sock.sendWin (inKex y.sock.log) r.1 r.2.1) : SockGate (SockCh.ofBuf r) := by
  obtain ⟨s, b, st⟩ := r
  obtain ⟨⟨h1, h2, h3⟩, h4⟩ := hr
  simp only at h1 h2 h3 h4
  refine ⟨?_, ?_, ?_, h4⟩
  · show s.rd = true → 0 < s.sendWin
    rw [h1, h2]; exact h.win
  · show s.rd = true → inKex s.log = false
    rw [h1, h3]; exact h.rk
  · show 0 < s.sendWin → inKex s.log = false → s.rd = true
    rw [h1, h2, h3]; exact h.open_

theorem SockGate.onRead {y} (h : SockGate y) (hrd : y.sock.rd = true) (nd r) : SockGate (y.onRead nd r).1 := by
  have hw := h.win hrd
  have hk := h.rk hrd
  unfold SockCh.onRead
  simp only
  split
  · rename_i h0; exfalso; omega
  · split
    · exact h.close
    · rename_i m
      have hlog : inKex (y.sock.log ++ [.tx (.data (min (m + 1) (min 4096 y.sock.sendWin)))]) = false := by
        rw [inKex_snoc]; exact hk
      refine ⟨?_, fun _ => hlog, ?_, dataQuiet_snoc h.quiet fun _ => hk⟩
      · simp only [Sock.emit, hrd, Bool.true_and, bne_iff_ne, ne_eq]
        exact Nat.pos_of_ne_zero
      · simp only [Sock.emit, hrd, Bool.true_and, bne_iff_ne, ne_eq]
        exact fun h _ => Nat.pos_iff_ne_zero.mp h

theorem SockGate.onHup {z} (h : SockGate z.1) (hup) : SockGate (SockCh.onHup hup z) := by
  obtain ⟨y2, empty⟩ := z
  unfold SockCh.onHup
  simp only
  split
  · exact h
  · cases (hup && empty)
    · exact h
    · exact h.close

theorem SockGate.onReady {y} (h : SockGate y) (nd wk r hup) (hr : r ≠ none → y.sock.rd = true) :
    SockGate (y.onReady nd wk r hup) := by
  unfold SockCh.onReady
  have h1 : SockGate (y.onWrite wk) ∧ (y.onWrite wk).sock.rd = y.sock.rd := by
    cases wk with
    | none => exact ⟨h, rfl⟩
    | some ks =>
      have := (SockQuiet.keeps y.sock.rd y.sock.sendWin (inKex y.sock.log)).read (ks := ks)
        (g := { y.sock with wr := false }) (b := y.buf) ⟨⟨rfl, rfl, rfl⟩, h.quiet⟩
      exact ⟨h.of_quiet this, this.1.1⟩
  generalize y.onWrite wk = y1 at *
  cases hs1 : y1.stop with
  | some _ => exact h1.1
  | none =>
    refine SockGate.onHup ?_ hup
    cases r with
    | none => exact h1.1
    | some r => exact h1.1.onRead (by rw [h1.2]; exact hr (by simp)) nd r

theorem SockGate.handle {y} (h : SockGate y) (nd ev)
    (hadj : ∀ n, ev = .recvAdjust n → y.sock.sendWin = 0 → inKex y.sock.log = false) : SockGate (y.handle nd ev) := by
  have hquiet : ∀ e : IoEntry, e.sentBytes = 0 → dataQuiet (y.sock.log ++ [e]) :=
    fun e he => dataQuiet_snoc h.quiet (by omega)
  cases ev with
  | recvData bs k =>
    simp only [SockCh.handle]
    split
    · exact ⟨h.win, h.rk, h.open_, h.quiet⟩
    · refine h.of_quiet ((SockQuiet.keeps _ _ _).onData ⟨⟨rfl, rfl, ?_⟩, hquiet _ rfl⟩ fun h => h)
      simp only [Sock.emit, inKex_snoc]; rfl
  | recvExt n =>
    simp only [SockCh.handle]
    split
    · exact ⟨h.win, h.rk, h.open_, h.quiet⟩
    · exact ⟨h.win, by simp only [Sock.emit, inKex_snoc]; exact h.rk, by simp only [Sock.emit, inKex_snoc]; exact h.open_, hquiet _ rfl⟩
  | recvEof =>
    simp only [SockCh.handle]
    refine h.of_quiet ((SockQuiet.keeps _ _ _).onEof ⟨⟨rfl, rfl, ?_⟩, hquiet _ rfl⟩ fun h => h)
    simp only [Sock.emit, inKex_snoc]; rfl
  | recvAdjust n =>
    simp only [SockCh.handle]
    split
    · exact ⟨h.win, h.rk, h.open_, h.quiet⟩
    · rename_i hn
      refine ⟨?_, ?_, ?_, hquiet _ rfl⟩
      · intro _; show 0 < y.sock.sendWin + n; omega
      · simp only [Sock.emit, inKex_snoc, inKexStep, Option.getD_none]
        intro hrd
        rw [Bool.or_eq_true] at hrd
        rcases hrd with hrd | hrd
        · exact h.rk hrd
        · exact hadj n rfl (by simpa using hrd)
      · simp only [Sock.emit, inKex_snoc, inKexStep, Option.getD_none]
        intro _ hrk
        by_cases h0 : y.sock.sendWin = 0
        · simp [h0]
        · rw [h.open_ (by omega) hrk]; rfl
  | blocked =>
    have hrk : inKex (y.sock.log ++ [.kexinit]) = true := by rw [inKex_snoc]; rfl
    refine ⟨?_, ?_, ?_, hquiet _ rfl⟩
    · simp only [SockCh.handle, Sock.emit]
      intro hrd
      rw [Bool.and_eq_true] at hrd
      exact h.win hrd.1
    · simp only [SockCh.handle, Sock.emit]
      intro hrd
      rw [Bool.and_eq_true] at hrd
      have := h.win hrd.1
      simp [this] at hrd
    · simp only [SockCh.handle, Sock.emit, hrk]; simp
  | unblocked =>
    have hrk : inKex (y.sock.log ++ [.newkeys]) = false := by rw [inKex_snoc]; rfl
    refine ⟨?_, ?_, ?_, hquiet _ rfl⟩
    · simp only [SockCh.handle, Sock.emit]
      intro hrd
      rw [Bool.or_eq_true] at hrd
      rcases hrd with hrd | hrd
      · exact h.win hrd
      · exact of_decide_eq_true hrd
    · simp only [SockCh.handle, Sock.emit, hrk]; simp
    · simp only [SockCh.handle, Sock.emit]
      intro h0 _
      simp [h0]
  | error =>
    simp only [SockCh.handle]
    cases (y.sock.rd || y.sock.wr)
    · exact h
    · exact h.close
  | ready wk r hup =>
    refine h.onReady nd _ _ _ ?_
    intro hr
    cases hrd : y.sock.rd with
    | true => rfl
    | false => rw [hrd] at hr; simp at hr

/-- The hypothesis on window adjustments, over a run. -/
def AdjustsOk (nd : Bool) (w : Nat) (evs : List SockEvent) : Prop :=
  ∀ a n b, evs = a ++ .recvAdjust n :: b → (SockCh.run nd (SockCh.init w) a).sock.sendWin = 0 →
    inKex (SockCh.run nd (SockCh.init w) a).sock.log = false

theorem sock_gate (nd) {w} (hw : 0 < w) (evs : List SockEvent) (hadj : AdjustsOk nd w evs) :
    SockGate (SockCh.run nd (SockCh.init w) evs) := by
  induction evs using Aux.snoc_ind with
  | h0 => exact ⟨fun _ => hw, fun _ => rfl, fun _ _ => rfl, dataQuiet_nil⟩
  | h1 evs ev ih =>
    have ih := ih fun a n b h => hadj a n (b ++ [ev]) (by rw [h]; simp)
    rw [SockCh.run_snoc]
    unfold SockCh.step
    split
    · exact ih
    · exact ih.handle nd ev fun n he => hadj evs n [] (by rw [he])

/-! ### No assertion fails -/

/-- What a polite environment does: no extended data, and the queue hands out at most
half a window at once. -/
def calm : SockEvent → Bool
  | .recvExt _ => false
  | .ready (some ks) _ _ => ks.all fun x => decide (x.1 + 1 ≤ RECEIVE_WINDOW / 2)
  | _ => true

/-- The peer sends nothing after end-of-file. -/
def polite : List SockEvent → Bool
  | [] => true
  | .recvEof :: evs => evs.all fun e => match e with | .recvData _ _ => false | .recvEof => false | _ => true
  | _ :: evs => polite evs

theorem consume_ok {s : Sock} {n} (hn : n ≤ s.recvWin) : ∃ s', s.consume n = some s' ∧ RECEIVE_WINDOW / 2 ≤ s'.recvWin := by
  unfold Sock.consume
  rw [if_pos hn]
  split
  · exact ⟨_, rfl, Nat.div_le_self _ _⟩
  · exact ⟨_, rfl, by simp only; omega⟩

theorem data_ok {s : Sock} {c k} (hs : RECEIVE_WINDOW / 2 ≤ s.recvWin) (hn : c.length ≤ s.recvWin) :
    RECEIVE_WINDOW / 2 ≤ (Sock.ops.data s c k).1.recvWin ∧ (Sock.ops.data s c k).2 ≠ .error .ub := by
  cases k with
  | wouldBlock => exact ⟨hs, by simp [Sock.ops]⟩
  | failed => exact ⟨hs, by simp [Sock.ops]⟩
  | wrote m =>
    obtain ⟨s', h1, h2⟩ := consume_ok (s := { s with wr := s.wr || decide (min m c.length < c.length) })
      (n := min m c.length) (by show _ ≤ s.recvWin; omega)
    simp only [Sock.ops, h1]
    exact ⟨h2, by simp⟩

theorem read_ok {ks : List (Nat × Wrote)} : ∀ {s : Sock} {b : Buf}, (∀ x ∈ ks, x.1 + 1 ≤ RECEIVE_WINDOW / 2) →
    RECEIVE_WINDOW / 2 ≤ s.recvWin →
    RECEIVE_WINDOW / 2 ≤ (b.read Sock.ops s ks).1.recvWin ∧ (b.read Sock.ops s ks).2.2 ≠ some .ub := by
  have hfin : ∀ {s : Sock} {b : Buf}, RECEIVE_WINDOW / 2 ≤ s.recvWin →
      RECEIVE_WINDOW / 2 ≤ (b.finish Sock.ops s).1.recvWin ∧ (b.finish Sock.ops s).2.2 ≠ some .ub := by
    intro s b h
    unfold Buf.finish
    cases b.eofPending
    · exact ⟨h, by simp⟩
    · exact ⟨h, by simp⟩
  induction ks with
  | nil =>
    intro s b _ h
    unfold Buf.read
    split
    · exact hfin h
    · exact ⟨h, by simp⟩
  | cons x ks ih =>
    obtain ⟨len, k⟩ := x
    intro s b hks h
    unfold Buf.read
    split
    · exact hfin h
    · simp only
      have hlen := hks _ List.mem_cons_self
      have hd := data_ok (k := k) h (c := b.queue.take (len + 1)) (by simp only [List.length_take] at *; omega)
      generalize Sock.ops.data s (b.queue.take (len + 1)) k = r at *
      obtain ⟨s', res⟩ := r
      cases res with
      | error e => exact ⟨hd.1, fun hc => hd.2 (by simpa using hc)⟩
      | ok n =>
        simp only
        split
        · exact ⟨hd.1, by simp⟩
        · exact ih (fun x hx => hks x (List.mem_cons_of_mem _ hx)) hd.1

/-- No assertion has failed, and none will. -/
structure SockFine (y : SockCh) : Prop where
  noUb : y.stop ≠ some .ub
  buf : y.stop = none → BufInv y.buf
  half : y.stop = none → RECEIVE_WINDOW / 2 ≤ y.sock.recvWin
  win : y.stop = none → y.sock.rd = true → 0 < y.sock.sendWin

theorem SockFine.ofBuf {r : Sock × Buf × Option BufStop} (h1 : r.2.2 ≠ some .ub) (h2 : r.2.2 = none → BufInv r.2.1)
    (h3 : RECEIVE_WINDOW / 2 ≤ r.1.recvWin ∨ r.2.2 ≠ none) (h4 : r.1.rd = true → 0 < r.1.sendWin) : SockFine (SockCh.ofBuf r) := by
  obtain ⟨s, b, st⟩ := r
  refine ⟨?_, ?_, ?_, fun _ => h4⟩
  · simp only at h1
    cases st with
    | none => simp [SockCh.ofBuf]
    | some st => cases st <;> simp [SockCh.ofBuf, BufStop.toIo] at h1 ⊢
  · simpa [SockCh.ofBuf] using h2
  · intro hs
    have hs : st = none := by simpa [SockCh.ofBuf] using hs
    exact h3.resolve_right (by simp [hs])

theorem SockFine.close {y : SockCh} : SockFine y.close :=
  ⟨by simp [SockCh.close], by simp [SockCh.close], by simp [SockCh.close], by simp [SockCh.close]⟩

theorem SockFine.onHup {z} (h : SockFine z.1) (hup) : SockFine (SockCh.onHup hup z) := by
  obtain ⟨y2, empty⟩ := z
  unfold SockCh.onHup
  simp only
  split
  · exact h
  · cases (hup && empty)
    · exact h
    · exact SockFine.close

theorem SockFine.onRead {y} (h : SockFine y) (hy : y.stop = none) (hrd : y.sock.rd = true) (nd r) : SockFine (y.onRead nd r).1 := by
  have hw := h.win hy hrd
  unfold SockCh.onRead
  simp only
  split
  · rename_i h0; exfalso; omega
  · split
    · exact SockFine.close
    · refine ⟨by simp [hy], fun _ => h.buf hy, fun _ => h.half hy, fun _ => ?_⟩
      simp only [Sock.emit, hrd, Bool.true_and, bne_iff_ne, ne_eq]
      exact Nat.pos_of_ne_zero

theorem SockFine.handle {y} (h : SockFine y) (hy : y.stop = none) (nd ev) (hc : calm ev = true)
    (hp : (∃ bs k, ev = .recvData bs k) ∨ ev = .recvEof → BufEntry.recvEof ∉ y.buf.log) : SockFine (y.handle nd ev) := by
  have hb := h.buf hy
  have hh := h.half hy
  have hw := h.win hy
  have hsame : SockSame y.sock.rd y.sock.sendWin (inKex y.sock.log) y.sock y.buf := ⟨rfl, rfl, rfl⟩
  cases ev with
  | recvData bs k =>
    simp only [SockCh.handle]
    split
    · exact ⟨by simp, by simp, by simp, by simp⟩
    · rename_i hn
      have hpol := hp (.inl ⟨bs, k, rfl⟩)
      obtain ⟨eof, told, h1, h2, _⟩ := hb
      obtain ⟨rfl, rfl⟩ := BufInv.not_eof hpol h1
      have hd := data_ok (s := y.sock.emit (.rx (.data bs.length))) (c := bs) (k := k) hh (by show _ ≤ y.sock.recvWin; omega)
      have hk := (SockSame.keeps y.sock.rd y.sock.sendWin (inKex y.sock.log)).onData (pl := bs) (k := k) (b := y.buf)
        (g := y.sock.emit (.rx (.data bs.length))) ⟨rfl, rfl, by simp only [Sock.emit, inKex_snoc]; rfl⟩ fun h => h
      refine SockFine.ofBuf ?_ ((h.buf hy).onData hpol _ _ _).1 ?_ (by rw [hk.1, hk.2.1]; exact hw)
      · unfold Buf.onData
        have he : (y.buf.emit (.recv bs)).eofPending = false := h2
        simp only [he, cond_false]
        split
        · simp
        · generalize Sock.ops.data (y.sock.emit (.rx (.data bs.length))) bs k = r at *
          obtain ⟨s', res⟩ := r
          cases res with
          | error e => exact fun hc => hd.2 (by simpa using hc)
          | ok n => simp
      · left
        unfold Buf.onData
        have he : (y.buf.emit (.recv bs)).eofPending = false := h2
        simp only [he, cond_false]
        split
        · exact hh
        · generalize Sock.ops.data (y.sock.emit (.rx (.data bs.length))) bs k = r at *
          obtain ⟨s', res⟩ := r
          cases res with
          | error e => exact hd.1
          | ok n => exact hd.1
  | recvExt n => simp [calm] at hc
  | recvEof =>
    have hpol := hp (.inr rfl)
    obtain ⟨eof, told, h1, h2, _⟩ := hb
    obtain ⟨rfl, rfl⟩ := BufInv.not_eof hpol h1
    have he : (y.buf.emit .recvEof).eofPending = false := h2
    refine SockFine.ofBuf (r := y.buf.onEof Sock.ops (y.sock.emit (.rx .eof))) ?_ ((h.buf hy).onEof hpol _).1 (.inl ?_) ?_
    · unfold Buf.onEof
      simp only [he, cond_false]
      split <;> simp
    · unfold Buf.onEof
      simp only [he, cond_false]
      split <;> exact hh
    · have hk := (SockSame.keeps y.sock.rd y.sock.sendWin (inKex y.sock.log)).onEof (b := y.buf)
        (g := y.sock.emit (.rx .eof)) ⟨rfl, rfl, by simp only [Sock.emit, inKex_snoc]; rfl⟩ fun h => h
      rw [hk.1, hk.2.1]; exact hw
  | recvAdjust n =>
    simp only [SockCh.handle]
    split
    · exact ⟨by simp, by simp, by simp, by simp⟩
    · refine ⟨h.noUb, fun _ => hb, fun _ => hh, fun _ _ => ?_⟩
      show 0 < y.sock.sendWin + n; omega
  | blocked =>
    refine ⟨h.noUb, fun _ => hb, fun _ => hh, fun _ hrd => ?_⟩
    simp only [SockCh.handle, Sock.emit] at hrd ⊢
    rw [Bool.and_eq_true] at hrd
    exact hw hrd.1
  | unblocked =>
    refine ⟨h.noUb, fun _ => hb, fun _ => hh, fun _ hrd => ?_⟩
    simp only [SockCh.handle, Sock.emit] at hrd ⊢
    rw [Bool.or_eq_true] at hrd
    rcases hrd with hrd | hrd
    · exact hw hrd
    · exact of_decide_eq_true hrd
  | error =>
    simp only [SockCh.handle]
    cases (y.sock.rd || y.sock.wr)
    · exact h
    · exact SockFine.close
  | ready wk r hup =>
    simp only [SockCh.handle]
    generalize hwk : (bif y.sock.wr then wk else none) = wk'
    have hks : ∀ ks, wk' = some ks → ∀ x ∈ ks, x.1 + 1 ≤ RECEIVE_WINDOW / 2 := by
      intro ks hks x hx
      cases hwr : y.sock.wr with
      | false => rw [hwr] at hwk; simp at hwk; simp [← hwk] at hks
      | true =>
        rw [hwr] at hwk; simp at hwk; subst hwk; subst hks
        simp only [calm, List.all_eq_true, decide_eq_true_eq] at hc
        exact hc x hx
    unfold SockCh.onReady
    have h1 : SockFine (y.onWrite wk') ∧ (y.onWrite wk').sock.rd = y.sock.rd := by
      cases wk' with
      | none => exact ⟨h, rfl⟩
      | some ks =>
        have hro := read_ok (s := { y.sock with wr := false }) (b := y.buf) (hks ks rfl) hh
        have hk := (SockSame.keeps y.sock.rd y.sock.sendWin (inKex y.sock.log)).read (ks := ks)
          (g := { y.sock with wr := false }) (b := y.buf) ⟨rfl, rfl, rfl⟩
        exact ⟨SockFine.ofBuf hro.2 (hb.read _ _).1 (.inl hro.1) (by rw [hk.1, hk.2.1]; exact hw), hk.1⟩
    generalize y.onWrite wk' = y1 at *
    cases hs1 : y1.stop with
    | some _ => exact h1.1
    | none =>
      refine SockFine.onHup ?_ hup
      cases hrd : y.sock.rd with
      | false => exact h1.1
      | true =>
        cases r with
        | none => exact h1.1
        | some r => exact h1.1.onRead hs1 (by rw [h1.2, hrd]) nd r

/-- End-of-file is in the record only if the peer sent it. -/
theorem sock_recvEof {nd} {y : SockCh} {ev} (h : BufEntry.recvEof ∈ (y.step nd ev).buf.log) : BufEntry.recvEof ∈ y.buf.log ∨ ev = .recvEof := by
  unfold SockCh.step at h
  split at h
  · exact .inl h
  · cases ev with
    | recvEof => exact .inr rfl
    | recvData bs k =>
      simp only [SockCh.handle] at h
      split at h
      · exact .inl h
      · exact .inl (Buf.onData_recvEof.mp h)
    | recvExt n => simp only [SockCh.handle] at h; split at h <;> exact .inl h
    | recvAdjust n => simp only [SockCh.handle] at h; split at h <;> exact .inl h
    | blocked => exact .inl h
    | unblocked => exact .inl h
    | error =>
      simp only [SockCh.handle] at h
      cases hb : (y.sock.rd || y.sock.wr)
      · rw [hb] at h; exact .inl h
      · rw [hb] at h; exact .inl h
    | ready wk r hup =>
      simp only [SockCh.handle] at h
      generalize (bif y.sock.wr then wk else none) = wk' at h
      generalize (bif y.sock.rd then r else none) = r' at h
      left
      unfold SockCh.onReady at h
      have h1 : BufEntry.recvEof ∈ (y.onWrite wk').buf.log → BufEntry.recvEof ∈ y.buf.log := by
        cases wk' with
        | none => exact id
        | some ks => exact Buf.read_recvEof.mp
      generalize y.onWrite wk' = y1 at *
      refine h1 ?_
      split at h
      · exact h
      · have h2 : (y1.maybeRead nd r').1.buf = y1.buf := by
          cases r' with
          | none => rfl
          | some r =>
            simp only [SockCh.maybeRead, SockCh.onRead]
            split
            · cases nd <;> rfl
            · split <;> rfl
        generalize y1.maybeRead nd r' = z at *
        obtain ⟨y2, empty⟩ := z
        have h3 : (SockCh.onHup hup (y2, empty)).buf = y2.buf := by
          unfold SockCh.onHup
          simp only
          split
          · rfl
          · cases (hup && empty) <;> rfl
        rw [h3] at h
        simp only at h2
        rw [← h2]; exact h

theorem polite_append {a b : List SockEvent} (h : polite (a ++ b) = true) :
    polite a = true ∧ (.recvEof ∈ a → ∀ e ∈ b, (∀ bs k, e ≠ .recvData bs k) ∧ e ≠ .recvEof) := by
  induction a with
  | nil => simp [polite]
  | cons e a ih =>
    by_cases he : e = .recvEof
    · subst he
      simp only [List.cons_append, polite, List.all_append, Bool.and_eq_true] at h ⊢
      refine ⟨h.1, fun _ x hx => ?_⟩
      have := List.all_eq_true.mp h.2 x hx
      constructor
      · intro bs k hc; subst hc; simp at this
      · intro hc; subst hc; simp at this
    · have h' : polite (a ++ b) = true := by cases e <;> simp [polite] at h he ⊢ <;> exact h
      have ih := ih h'
      refine ⟨by cases e <;> simp [polite] at he ⊢ <;> exact ih.1, fun hm => ih.2 ?_⟩
      rcases List.mem_cons.mp hm with h1 | h1
      · exact absurd h1.symm he
      · exact h1

theorem sock_eof_sent {nd w} {evs : List SockEvent} :
    BufEntry.recvEof ∈ (SockCh.run nd (SockCh.init w) evs).buf.log → .recvEof ∈ evs := by
  induction evs using Aux.snoc_ind with
  | h0 => simp [SockCh.run, SockCh.init]
  | h1 evs ev ih =>
    rw [SockCh.run_snoc]
    intro h
    rcases sock_recvEof h with h | rfl
    · simp [ih h]
    · simp

theorem sock_fine (nd) {w} (hw : 0 < w) (evs : List SockEvent) (hc : ∀ e ∈ evs, calm e = true) (hp : polite evs = true) :
    SockFine (SockCh.run nd (SockCh.init w) evs) := by
  induction evs using Aux.snoc_ind with
  | h0 => exact ⟨by simp [SockCh.run, SockCh.init], fun _ => BufInv.init, fun _ => Nat.div_le_self _ _, fun _ _ => hw⟩
  | h1 evs ev ih =>
    obtain ⟨hp1, hp2⟩ := polite_append hp
    have ih := ih (fun e he => hc e (by simp [he])) hp1
    rw [SockCh.run_snoc]
    unfold SockCh.step
    split
    · exact ih
    · rename_i hs
      refine ih.handle hs nd ev (hc ev (by simp)) ?_
      intro hev hmem
      have := hp2 (sock_eof_sent hmem) ev (by simp)
      rcases hev with ⟨bs, k, rfl⟩ | rfl
      · exact this.1 bs k rfl
      · exact this.2 rfl

end Lukko
