import Verif.Proof.Socket
/-
  Property theorems about the input buffer of channels (C26) and about channels
  connected to a socket: C19, C24, C25, C59, C62.
-/
namespace Lukko
open Model Spec

/-! ## C26

`BufSys.run {} evs`: a channel after any sequence of data and end-of-file from the
peer and of resumptions by the consumer, which consumes any part of what it is
offered, or throws. -/

/-- The peer sends neither data nor end-of-file after end-of-file, as RFC 4254
section 5.3 demands. -/
def Model.BufEvent.silent : BufEvent → Bool
  | .read _ => true
  | _ => false

def politePeer : List BufEvent → Bool
  | [] => true
  | .eof :: evs => evs.all BufEvent.silent
  | _ :: evs => politePeer evs

theorem politePeer_append {a b : List BufEvent} (h : politePeer (a ++ b) = true) :
    politePeer a = true ∧ (.eof ∈ a → ∀ e ∈ b, e.silent = true) := by
  induction a with
  | nil => simp [politePeer]
  | cons e a ih =>
    cases e with
    | eof =>
      simp only [List.cons_append, politePeer, List.all_append, Bool.and_eq_true] at h ⊢
      exact ⟨h.1, fun _ x hx => List.all_eq_true.mp h.2 x hx⟩
    | data bs k =>
      have ih := ih h
      exact ⟨ih.1, fun hm => ih.2 (by rcases List.mem_cons.mp hm with h1 | h1; · cases h1
                                      · exact h1)⟩
    | read ks =>
      have ih := ih h
      exact ⟨ih.1, fun hm => ih.2 (by rcases List.mem_cons.mp hm with h1 | h1; · cases h1
                                      · exact h1)⟩

theorem BufSys.eof_sent {evs : List BufEvent} : BufEntry.recvEof ∈ (BufSys.run {} evs).buf.log → .eof ∈ evs := by
  induction evs using Aux.snoc_ind with
  | h0 => simp [BufSys.run]
  | h1 evs ev ih =>
    intro h
    have hrun : BufSys.run {} (evs ++ [ev]) = (BufSys.run {} evs).step ev := by simp [BufSys.run]
    rw [hrun] at h
    unfold BufSys.step at h
    split at h
    · simp [ih h]
    · cases ev with
      | eof => simp
      | data bs k => simp [ih (Buf.onData_recvEof.mp h)]
      | read ks => simp [ih (Buf.read_recvEof.mp h)]

theorem buf_run {evs : List BufEvent} (hp : politePeer evs = true) :
    ((BufSys.run {} evs).stop = none → BufInv (BufSys.run {} evs).buf) ∧ BufSafe (BufSys.run {} evs).buf := by
  induction evs using Aux.snoc_ind with
  | h0 => exact ⟨fun _ => BufInv.init, BufInv.init.safe⟩
  | h1 evs ev ih =>
    obtain ⟨hp1, hp2⟩ := politePeer_append hp
    have ih := ih hp1
    have hrun : BufSys.run {} (evs ++ [ev]) = (BufSys.run {} evs).step ev := by simp [BufSys.run]
    rw [hrun]
    unfold BufSys.step
    split
    · exact ih
    · rename_i hs
      have hnot : ev.silent = false → BufEntry.recvEof ∉ (BufSys.run {} evs).buf.log := by
        intro hsil hm
        rw [hp2 (BufSys.eof_sent hm) ev (by simp)] at hsil
        simp at hsil
      cases ev with
      | data bs k => exact (ih.1 hs).onData (hnot rfl) () bs k
      | eof => exact (ih.1 hs).onEof (hnot rfl) ()
      | read ks => exact (ih.1 hs).read () ks

variable {evs : List BufEvent}

/-- **C26.** The channel behaves like a pipe whose content is the queue. -/
theorem C26_pipe_partial (hp : politePeer evs = true) (hs : (BufSys.run {} evs).stop = none) :
    ∃ p, pipe (BufSys.run {} evs).buf.log = some p ∧ p.content = (BufSys.run {} evs).buf.queue := by
  obtain ⟨e, t, h, _⟩ := (buf_run hp).1 hs
  exact ⟨_, h, rfl⟩

/-- **C26.** The consumer has taken an initial part of the bytes sent by the peer. -/
theorem C26_prefix_partial (hp : politePeer evs = true) :
    taken (BufSys.run {} evs).buf.log <+: bufBytes (BufSys.run {} evs).buf.log := by
  obtain ⟨p, h⟩ := (buf_run hp).2
  exact ⟨_, (pipe_facts h).1⟩

/-- **C26.** The rest is in the queue. -/
theorem C26_rest_partial (hp : politePeer evs = true) (hs : (BufSys.run {} evs).stop = none) :
    taken (BufSys.run {} evs).buf.log ++ (BufSys.run {} evs).buf.queue = bufBytes (BufSys.run {} evs).buf.log := by
  obtain ⟨e, t, h, _⟩ := (buf_run hp).1 hs
  exact (pipe_facts h).1

/-- **C26.** The consumer is told about end-of-file only after the peer sent it and
after it has taken all bytes; nothing happens afterwards: it is told only once. -/
theorem C26_eof_last_partial (hp : politePeer evs = true) {a b : List BufEntry}
    (hl : (BufSys.run {} evs).buf.log = a ++ .sawEof :: b) :
    .recvEof ∈ a ∧ taken a = bufBytes a ∧ b = [] := by
  obtain ⟨p, h⟩ := (buf_run hp).2
  rw [hl] at h
  obtain ⟨q, h1, h2⟩ := pipe_prefix h
  have hf := pipe_facts h1
  simp only [List.foldl_cons, pipeStep_some, Pipe.next] at h2
  split at h2
  · rename_i hc
    refine ⟨hf.2.1.mp hc.1, by have := hf.1; rw [hc.2.2] at this; simpa using this, ?_⟩
    exact pipe_after_told (q := { q with told := true }) rfl hc.1 h2
  · rw [pipe_fold_none] at h2; simp at h2

/-- **C26.** It is told, once it has taken everything. -/
theorem C26_eof_told_partial (hp : politePeer evs = true) (hs : (BufSys.run {} evs).stop = none)
    (he : .recvEof ∈ (BufSys.run {} evs).buf.log) (hq : (BufSys.run {} evs).buf.queue = []) :
    (BufSys.run {} evs).buf.log.count .sawEof = 1 := by
  obtain ⟨e, t, h, _, h3⟩ := (buf_run hp).1 hs
  have hf := pipe_facts h
  have he := hf.2.1.mpr he
  cases t with
  | false => exact absurd hq (h3 he rfl)
  | true =>
    have h1 := hf.2.2.2.2.1
    have h2 := List.count_pos_iff.mpr (hf.2.2.1.mp rfl)
    omega

/-- **C26.** If the consumer takes everything it is offered, nothing remains (when it
is offered something often enough). -/
theorem C26_drained_partial {ks : List (Nat × Except BufStop Nat)} :
    ∀ {b : Buf}, (∀ x ∈ ks, x.2 = .ok (x.1 + 1)) → b.queue.length ≤ ks.length →
      (b.read anyConsumer () ks).2.1.queue = [] := by
  have hfin : ∀ {b : Buf}, b.queue = [] → (b.finish anyConsumer ()).2.1.queue = [] := by
    intro b h
    unfold Buf.finish
    cases b.eofPending <;> exact h
  induction ks with
  | nil =>
    intro b _ h
    have hq : b.queue = [] := List.length_eq_zero_iff.mp (by simpa using h)
    unfold Buf.read
    rw [if_pos hq]
    exact hfin hq
  | cons x ks ih =>
    obtain ⟨len, k⟩ := x
    intro b hx h
    have hk : k = .ok (len + 1) := hx _ List.mem_cons_self
    subst hk
    unfold Buf.read
    split
    · rename_i hq; exact hfin hq
    · rename_i hq
      simp only [anyConsumer]
      rw [if_neg (by simp only [List.length_take]; omega)]
      refine ih (fun y hy => hx y (List.mem_cons_of_mem _ hy)) ?_
      have : b.queue.length ≠ 0 := fun hc => hq (List.length_eq_zero_iff.mp hc)
      simp only [Buf.emit, List.length_drop, List.length_take, List.length_cons] at h ⊢
      omega

/-- Partial consumption, then everything, then end-of-file. -/
def demoBuf : List BufEvent :=
  [.data [1, 2, 3] (.ok 1), .data [4, 5] (.ok 0), .eof, .read [(1, .ok 2), (5, .ok 1)], .read [(0, .ok 1)]]

example : politePeer demoBuf = true ∧ (BufSys.run {} demoBuf).stop = none ∧ (BufSys.run {} demoBuf).buf.queue = [] ∧
    taken (BufSys.run {} demoBuf).buf.log = [1, 2, 3, 4, 5] ∧ .sawEof ∈ (BufSys.run {} demoBuf).buf.log := by
  decide +kernel

/-- **C26** is false if the peer sends data after end-of-file: that data reaches the
consumer after it was told about end-of-file … -/
theorem C26_data_after_eof_violated :
    (BufSys.run {} [.eof, .data [1] (.ok 1)]).stop = none ∧
    (BufSys.run {} [.eof, .data [1] (.ok 1)]).buf.log = [.recvEof, .sawEof, .recv [1], .took [1]] := by
  decide +kernel

/-- … or fails an assertion; and a second end-of-file is passed on too. -/
theorem C26_eof_twice_violated :
    (BufSys.run {} [.data [1] (.ok 0), .eof, .data [1] (.ok 1)]).stop = some .ub ∧
    (BufSys.run {} [.eof, .eof]).buf.log.count .sawEof = 2 := by
  decide +kernel

/-! ## C24: channels connected to a socket

`SockCh.run nd (SockCh.init w) evs`: such a channel, opened with initial window `w`,
after any sequence of events; `nd`: assertions are disabled. -/

variable {nd : Bool} {w : Nat} {sevs : List SockEvent}

/-- The record of the channel. -/
abbrev Model.SockCh.log (y : SockCh) : List IoEntry := y.sock.log

/-- **C24.** Bytes sent never exceed the initial window and all adjustments. -/
theorem C24_socket :
    total IoEntry.sentBytes (SockCh.run nd (SockCh.init w) sevs).log ≤
      w + total IoEntry.granted (SockCh.run nd (SockCh.init w) sevs).log := by
  have := (sock_run nd w sevs).acc.send
  simp only [SockCh.log]; omega

def demoSock : List SockEvent :=
  [.ready none (some (some 99)) false, .recvData [1, 2, 3] (.wrote 1), .blocked, .ready (some [(7, .wrote 2)]) (some (some 5)) false,
   .recvAdjust 50, .unblocked, .ready none (some (some 999)) false, .recvEof]

example : (SockCh.run false (SockCh.init 120) demoSock).stop = none ∧
    total IoEntry.sentBytes (SockCh.run false (SockCh.init 120) demoSock).log = 170 ∧
    taken (SockCh.run false (SockCh.init 120) demoSock).buf.log = [1, 2, 3] ∧
    (SockCh.run false (SockCh.init 120) demoSock).sock.shutWr = true := by decide +kernel

/-! ## C25 -/

/-- **C25** is false: the peer can send any amount of data although nothing is
consumed and nothing beyond the initial window was granted; all of it is buffered. -/
theorem C25_unbounded_violated (B : Nat) :
    ∃ evs : List SockEvent, (SockCh.run nd (SockCh.init w) evs).stop = none ∧
      total IoEntry.weGranted (SockCh.run nd (SockCh.init w) evs).log = 0 ∧
      B < (SockCh.run nd (SockCh.init w) evs).buf.queue.length := by
  have key : ∀ k, ∃ s b, SockCh.run nd (SockCh.init w) (List.replicate (k + 1) (.recvData [0] .wouldBlock)) = ⟨s, b, none⟩ ∧
      total IoEntry.weGranted s.log = 0 ∧ b.queue.length = k + 1 ∧ b.eofPending = false ∧ s.recvWin = RECEIVE_WINDOW := by
    intro k
    induction k with
    | zero => exact ⟨_, _, rfl, rfl, rfl, rfl, rfl⟩
    | succ k ih =>
      obtain ⟨s, b, h1, h2, h3, h4, h5⟩ := ih
      rw [List.replicate_succ', SockCh.run_snoc, h1]
      have hq : b.queue ≠ [] := by intro hc; rw [hc] at h3; simp at h3
      have he : (b.emit (.recv [0])).eofPending = false := h4
      have hq' : (b.emit (.recv [0])).queue ≠ [] := hq
      have hw : ¬ [(0 : UInt8)].length > s.recvWin := by rw [h5]; decide
      simp only [SockCh.step, SockCh.handle, hw, if_false, Buf.onData, he, cond_false, hq', ne_eq, not_false_eq_true, if_true,
        SockCh.ofBuf, Option.map_none]
      refine ⟨_, _, rfl, ?_, ?_, rfl, h5⟩
      · simp only [Sock.emit, total_snoc, h2]; rfl
      · simp only [Buf.emit, List.length_append, h3]; rfl
  obtain ⟨s, b, h1, h2, h3, _⟩ := key B
  refine ⟨_, by rw [h1], ?_, ?_⟩
  · rw [h1]; exact h2
  · rw [h1]; show B < b.queue.length; omega

/-- **C25.** A single packet that is larger than the unconsumed window ends the
connection. -/
theorem C25_large_packet_partial (hs : (SockCh.run nd (SockCh.init w) sevs).stop = none) {bs : Bytes} {k : Wrote}
    (hb : RECEIVE_WINDOW < bs.length) :
    (SockCh.run nd (SockCh.init w) (sevs ++ [.recvData bs k])).stop = some .connection := by
  have hle := (sock_run nd w sevs).acc.le
  rw [SockCh.run_snoc]
  unfold SockCh.step
  rw [hs]
  simp only [SockCh.handle]
  rw [if_pos (by omega)]

/-- **C25.** As long as the peer has not sent more than we granted, the bytes buffered
fit into the window. -/
theorem C25_honest_partial (hs : (SockCh.run nd (SockCh.init w) sevs).stop = none)
    (hon : total IoEntry.gotBytes (SockCh.run nd (SockCh.init w) sevs).log ≤
      RECEIVE_WINDOW + total IoEntry.weGranted (SockCh.run nd (SockCh.init w) sevs).log) :
    (SockCh.run nd (SockCh.init w) sevs).buf.queue.length ≤ RECEIVE_WINDOW := by
  have h := sock_run nd w sevs
  obtain ⟨a1, a2, a3, a4⟩ := h.acc
  have hc := h.cnt hs
  unfold BufCnt at hc
  simp only [SockCh.log] at hon
  omega

/-- **C25.** Everything we granted beyond the initial window replaces bytes that were
consumed (or extended data, which is thrown away): the window that is open at any
time is at most 1 MiB. -/
theorem C25_grant_partial :
    total IoEntry.weGranted (SockCh.run nd (SockCh.init w) sevs).log ≤
      (taken (SockCh.run nd (SockCh.init w) sevs).buf.log).length +
      total extBytes (SockCh.run nd (SockCh.init w) sevs).log := by
  have h := (sock_run nd w sevs).acc
  have h1 := h.recv
  have h2 := h.le
  simp only [SockCh.log]
  omega

/-- 2 MiB of window used: half a window at a time -/
example : let y := SockCh.run false (SockCh.init 1) [.recvData (List.replicate 8 7) (.wrote 4)]
    y.buf.queue.length = 4 ∧ y.stop = none ∧ total IoEntry.gotBytes y.log = 8 := by decide +kernel

/-! ## C59 -/

/-- **C59** is false: with an initial window of zero, the socket becomes readable, an
assertion fails, or, if assertions are disabled, the channel is closed. -/
theorem C59_zero_window_violated (m : Nat) :
    (SockCh.run false (SockCh.init 0) [.ready none (some (some m)) false]).stop = some .ub ∧
    (SockCh.run true (SockCh.init 0) [.ready none (some (some m)) false]).stop = some .channel := by
  constructor <;> rfl

/-- **C59.** If the window was positive initially, a window that is used up later does
no harm: nothing is read until it is adjusted. -/
theorem C59_later_zero_partial (hw : 0 < w) (hc : ∀ e ∈ sevs, calm e = true) (hp : polite sevs = true)
    (hs : (SockCh.run nd (SockCh.init w) sevs).stop = none)
    (h0 : total IoEntry.sentBytes (SockCh.run nd (SockCh.init w) sevs).log =
      w + total IoEntry.granted (SockCh.run nd (SockCh.init w) sevs).log) (r : Option ReadResult) :
    SockCh.run nd (SockCh.init w) (sevs ++ [.ready none r false]) = SockCh.run nd (SockCh.init w) sevs := by
  have hf := sock_fine nd hw sevs hc hp
  have ha := (sock_run nd w sevs).acc.send
  simp only [SockCh.log] at h0
  rw [SockCh.run_snoc]
  generalize SockCh.run nd (SockCh.init w) sevs = y at *
  have hrd : y.sock.rd = false := by
    cases hrd : y.sock.rd with
    | false => rfl
    | true => have := hf.win hs hrd; omega
  unfold SockCh.step
  rw [hs]
  simp only [SockCh.handle, hrd, cond_false]
  have hn : (bif y.sock.wr then (none : Option (List (Nat × Wrote))) else none) = none := by cases y.sock.wr <;> rfl
  rw [hn]
  simp only [SockCh.onReady, SockCh.onWrite, hs, SockCh.maybeRead, SockCh.onHup, Bool.false_and, cond_false]

example : total IoEntry.sentBytes (SockCh.run false (SockCh.init 120) (demoSock.take 7)).log = 120 + 50 := by decide +kernel

/-! ## C19 -/

/-- **C19** is false: a window adjustment while our key exchange is in progress makes
the channel read and send data. -/
theorem C19_data_violated :
    let y := SockCh.run false (SockCh.init 1) [.ready none (some (some 0)) false, .blocked, .recvAdjust 10, .ready none (some (some 3)) false]
    y.stop = none ∧
    y.log = [.tx (.data 1), .kexinit, .rx (.adjust 10), .tx (.data 4)] := by decide +kernel

/-- Window adjustments are sent at any time: here for half a window of data (the
sizes are those of the model; a real packet is smaller). -/
theorem C19_adjust_violated :
    ∃ evs, (SockCh.run false (SockCh.init 1) evs).stop = none ∧
      ∃ a n b, (SockCh.run false (SockCh.init 1) evs).log = a ++ .tx (.adjust n) :: b ∧ inKex a = true := by
  have key : ∀ bs : Bytes, bs.length = 524289 → SockCh.run false (SockCh.init 1) [.blocked, .recvData bs (.wrote 524289)] =
      ⟨⟨1, RECEIVE_WINDOW, false, false, false, [.kexinit, .rx (.data 524289), .tx (.adjust 524289)]⟩,
        ⟨bs.drop 524289, false, [.recv bs, .took (bs.take 524289)]⟩, none⟩ := by
    intro bs hl
    simp [SockCh.run, SockCh.step, SockCh.handle, SockCh.init, Sock.emit, hl, SockCh.ofBuf, Buf.onData, Buf.emit, Sock.ops, Sock.consume, RECEIVE_WINDOW]
  obtain ⟨bs, hl⟩ : ∃ bs : Bytes, bs.length = 524289 := ⟨List.replicate 524289 0, List.length_replicate⟩
  refine ⟨_, (congrArg SockCh.stop (key bs hl)).trans rfl, [.kexinit, .rx (.data 524289)], 524289, [], ?_, rfl⟩
  exact (congrArg SockCh.log (key bs hl)).trans rfl

/-- **C19.** If the initial window is positive, the channel is created while no key
exchange is in progress, and no adjustment of an exhausted window arrives during one:
no data is sent between our KEXINIT and our NEWKEYS. -/
theorem C19_socket_partial (hw : 0 < w)
    (hadj : ∀ a n b, sevs = a ++ .recvAdjust n :: b →
      total IoEntry.sentBytes (SockCh.run nd (SockCh.init w) a).log =
        w + total IoEntry.granted (SockCh.run nd (SockCh.init w) a).log →
      inKex (SockCh.run nd (SockCh.init w) a).log = false)
    {a b : List IoEntry} {e : IoEntry} (hl : (SockCh.run nd (SockCh.init w) sevs).log = a ++ e :: b)
    (he : 0 < e.sentBytes) : inKex a = false := by
  refine (sock_gate nd hw sevs ?_).quiet a e b hl he
  intro a n b hs h0
  refine hadj a n b hs ?_
  have := (sock_run nd w a).acc.send
  simp only [SockCh.log]; omega

/-- **C19.** Conversely data flows again: when no key exchange is in progress and the
window is not exhausted, the channel waits for data from the socket. -/
theorem C19_resumes_partial (hw : 0 < w)
    (hadj : ∀ a n b, sevs = a ++ .recvAdjust n :: b →
      total IoEntry.sentBytes (SockCh.run nd (SockCh.init w) a).log =
        w + total IoEntry.granted (SockCh.run nd (SockCh.init w) a).log →
      inKex (SockCh.run nd (SockCh.init w) a).log = false)
    (h0 : total IoEntry.sentBytes (SockCh.run nd (SockCh.init w) sevs).log <
      w + total IoEntry.granted (SockCh.run nd (SockCh.init w) sevs).log)
    (hrk : inKex (SockCh.run nd (SockCh.init w) sevs).log = false) :
    (SockCh.run nd (SockCh.init w) sevs).sock.rd = true := by
  refine (sock_gate nd hw sevs ?_).open_ ?_ hrk
  · intro a n b hs h0
    refine hadj a n b hs ?_
    have := (sock_run nd w a).acc.send
    simp only [SockCh.log]; omega
  · have := (sock_run nd w sevs).acc.send
    simp only [SockCh.log] at h0; omega

/-- In `demoSock` a key exchange takes place, the window is adjusted during it (while
it is not exhausted), and data is sent before and after. -/
example : AdjustsOk false 120 demoSock := by
  intro a n b h h0
  have ha : a = demoSock.take 4 := by
    have : a.length = 4 := by
      match a, h with
      | [_, _, _, _], _ => rfl
      | [], h => simp [demoSock] at h
      | [_], h => simp [demoSock] at h
      | [_, _], h => simp [demoSock] at h
      | [_, _, _], h => simp [demoSock] at h
      | _ :: _ :: _ :: _ :: _ :: rest, h =>
        exfalso
        simp only [demoSock, List.cons_append, List.cons.injEq] at h
        have h := h.2.2.2.2.2
        match rest, h with
        | [], h => simp at h
        | [_], h => simp at h
        | [_, _], h => simp at h
        | _ :: _ :: _ :: rest, h => simp at h
    rw [h, ← this]; simp
  subst ha
  revert h0; decide +kernel

/-! ## C62 -/

/-- **C62.** A polite peer cannot make an assertion fail: if it sends nothing after
end-of-file and no extended data, and the initial window is positive. -/
theorem C62_socket_partial (hw : 0 < w) (hc : ∀ e ∈ sevs, calm e = true) (hp : polite sevs = true) :
    (SockCh.run nd (SockCh.init w) sevs).stop ≠ some .ub := (sock_fine nd hw sevs hc hp).noUb

example : (∀ e ∈ demoSock, calm e = true) ∧ polite demoSock = true := by decide +kernel

/-- **C62** is false: an assertion fails if data follows end-of-file, … -/
theorem C62_data_after_eof_violated :
    (SockCh.run false (SockCh.init 1) [.recvData [1] .wouldBlock, .recvEof, .recvData [2] .wouldBlock]).stop = some .ub := by
  decide +kernel

/-- … or if the window is used up by extended data, which is not expected on such a
channel, while data is buffered. -/
theorem C62_extended_data_violated :
    (SockCh.run false (SockCh.init 1)
      [.recvData [1] .wouldBlock, .recvExt RECEIVE_WINDOW, .ready (some [(0, .wrote 1)]) none false]).stop = some .ub := by
  decide +kernel

end Lukko
