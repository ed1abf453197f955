import Verif.Proof.RelayRun
import Verif.Spec.Tunnel
/-
  What a single forwarded connection records about the messages of the client, and how much
  it sends at once.
-/
namespace Lukko
open Model Spec

/-! ### The channel -/

/-- Something which the client has sent. -/
def BufEntry.isRecv : BufEntry → Bool
  | .recv _ | .recvEof => true
  | _ => false

/-- What the buffer is told by an event. -/
def Model.SockEvent.got : SockEvent → List BufEntry
  | .recvData bs _ => [.recv bs]
  | .recvEof => [.recvEof]
  | _ => []

def smallData (log : List IoEntry) : Prop := ∀ n, IoEntry.tx (.data n) ∈ log → n ≤ 4096

theorem smallData.snoc {log e} (h : smallData log) (he : ∀ n, e = .tx (.data n) → n ≤ 4096) : smallData (log ++ [e]) := by
  intro n hn
  rcases List.mem_append.mp hn with hn | hn
  · exact h n hn
  · rw [List.mem_singleton] at hn
    exact he n hn.symm

structure SockTold (L : List BufEntry) (s : Sock) (b : Buf) : Prop where
  small : smallData s.log
  told : b.log.filter BufEntry.isRecv = L

theorem SockTold.quiet {L s b e} (h : SockTold L s b) (he : BufEntry.isRecv e = false) {q p} :
    SockTold L s { b.emit e with queue := q, eofPending := p } := by
  refine ⟨h.small, ?_⟩
  show (b.log ++ [e]).filter BufEntry.isRecv = L
  rw [List.filter_append, List.filter_cons_of_neg (by rw [he]; nofun), List.filter_nil, List.append_nil]
  exact h.told

theorem SockTold.keeps (L) : Keeps Sock.ops (SockTold L) where
  eof := fun h => ⟨h.small, (h.quiet (e := .sawEof) rfl (q := []) (p := false)).told⟩
  stop := by
    intro g b c k e g' h hd
    cases k with
    | wouldBlock => simp [Sock.ops] at hd
    | failed => simp [Sock.ops] at hd; obtain ⟨rfl, _⟩ := hd; exact h
    | wrote m =>
      simp only [Sock.ops] at hd
      split at hd
      · simp at hd; obtain ⟨rfl, _⟩ := hd; exact ⟨h.small, h.told⟩
      · simp at hd
  data := by
    intro g b c k n g' q h hd
    have hb := (h.quiet (e := .took (c.take n)) rfl (q := q) (p := b.eofPending)).told
    cases k with
    | wouldBlock => simp [Sock.ops] at hd; obtain ⟨rfl, rfl⟩ := hd; exact ⟨h.small, hb⟩
    | failed => simp [Sock.ops] at hd
    | wrote m =>
      simp only [Sock.ops] at hd
      split at hd
      · simp at hd
      · rename_i s' hc
        simp at hd; obtain ⟨rfl, rfl⟩ := hd
        simp only [Sock.consume] at hc
        split at hc
        · split at hc
          · simp at hc; subst hc
            exact ⟨h.small.snoc (by intro n hn; cases hn), hb⟩
          · simp at hc; subst hc; exact ⟨h.small, hb⟩
        · simp at hc

theorem told_read {L nd} {y : SockCh} (h : SockTold L y.sock y.buf) (r) : SockTold L (y.onRead nd r).1.sock (y.onRead nd r).1.buf := by
  have hc : SockTold L y.close.sock y.close.buf := ⟨h.small.snoc (by intro n hn; cases hn), h.told⟩
  unfold SockCh.onRead
  simp only
  split
  · cases nd
    · exact h
    · exact hc
  · split
    · exact hc
    · refine ⟨h.small.snoc ?_, h.told⟩
      intro n hn
      simp only [IoEntry.tx.injEq, ChMsg.data.injEq] at hn
      omega

theorem told_hup {L} {z : SockCh × Bool} (h : SockTold L z.1.sock z.1.buf) (hup) :
    SockTold L (SockCh.onHup hup z).sock (SockCh.onHup hup z).buf := by
  obtain ⟨y, e⟩ := z
  unfold SockCh.onHup
  simp only
  split
  · exact h
  · cases hup && e
    · exact h
    · exact ⟨h.small.snoc (by intro n hn; cases hn), h.told⟩

theorem told_ready {L nd} {y : SockCh} (h : SockTold L y.sock y.buf) (w r hup) :
    SockTold L (y.onReady nd w r hup).sock (y.onReady nd w r hup).buf := by
  have hw : SockTold L (y.onWrite w).sock (y.onWrite w).buf := by
    cases w with
    | none => exact h
    | some ks => exact (SockTold.keeps L).read (ks := ks) (g := { y.sock with wr := false }) ⟨h.small, h.told⟩
  unfold SockCh.onReady
  split
  · exact hw
  · refine told_hup ?_ hup
    cases r with
    | none => exact hw
    | some r => exact told_read hw r

/-- The buffer is told what the client has sent; or the client has broken the rules. -/
theorem told_handle (nd) {y : SockCh} (hs : smallData y.sock.log) (ev : SockEvent) :
    SockTold (y.buf.log.filter BufEntry.isRecv ++ ev.got) (y.handle nd ev).sock (y.handle nd ev).buf ∨
    (smallData (y.handle nd ev).sock.log ∧ (y.handle nd ev).buf.log = y.buf.log ∧ (y.handle nd ev).stop = some .connection) := by
  have h0 : SockTold (y.buf.log.filter BufEntry.isRecv ++ []) y.sock y.buf := ⟨hs, by rw [List.append_nil]⟩
  cases ev with
  | recvData bs k =>
    simp only [SockCh.handle]
    split
    · exact .inr ⟨hs, rfl, rfl⟩
    · refine .inl ((SockTold.keeps _).onData ?_ fun h => ⟨h.small, h.told⟩)
      refine ⟨hs.snoc (by intro n hn; cases hn), ?_⟩
      show (y.buf.log ++ [BufEntry.recv bs]).filter BufEntry.isRecv = _
      rw [List.filter_append]; rfl
  | recvExt n =>
    simp only [SockCh.handle]
    split
    · exact .inr ⟨hs, rfl, rfl⟩
    · exact .inl ⟨hs.snoc (by intro n hn; cases hn), h0.told⟩
  | recvEof =>
    refine .inl ((SockTold.keeps _).onEof ?_ fun h => ⟨h.small, h.told⟩)
    refine ⟨hs.snoc (by intro n hn; cases hn), ?_⟩
    show (y.buf.log ++ [BufEntry.recvEof]).filter BufEntry.isRecv = _
    rw [List.filter_append]; rfl
  | recvAdjust n =>
    simp only [SockCh.handle]
    split
    · exact .inr ⟨hs, rfl, rfl⟩
    · exact .inl ⟨hs.snoc (by intro n hn; cases hn), h0.told⟩
  | blocked => exact .inl ⟨hs.snoc (by intro n hn; cases hn), h0.told⟩
  | unblocked => exact .inl ⟨hs.snoc (by intro n hn; cases hn), h0.told⟩
  | error =>
    simp only [SockCh.handle]
    cases y.sock.rd || y.sock.wr
    · exact .inl h0
    · exact .inl ⟨hs.snoc (by intro n hn; cases hn), h0.told⟩
  | ready w r hup => exact .inl (told_ready h0 _ _ _)

/-! ### The forwarded connection -/

/-- What the client's message means, in the record. -/
def Model.RelayEvent.mark : RelayEvent → Option RelayEntry
  | .clientData bs _ => some (.client bs)
  | .clientEof => some .clientEnds
  | _ => none

def clientOf : BufEntry → Option RelayEntry
  | .recv bs => some (.client bs)
  | .recvEof => some .clientEnds
  | _ => none

theorem byClient_view (log : List RelayEntry) :
    log.filter RelayEntry.byClient = ((clientView log).filter BufEntry.isRecv).filterMap clientOf := by
  induction log with
  | nil => rfl
  | cons e log ih =>
    rw [show e :: log = [e] ++ log from rfl, clientView_append, List.filter_append, List.filter_append, List.filterMap_append, ih]
    congr 1
    cases e <;> rfl

theorem relay_ch (nd) {y : Relay} (hs : y.ch.stop = none) (ev : RelayEvent) : (y.step nd ev).ch = y.act nd ev := by
  simp only [Relay.step, hs]
  exact (sends_facts _ _).ch

theorem sends_small (es : List IoEntry) : ∀ {y : Relay} {bs : Bytes}, RelayEntry.toClient bs ∈ (y.sends es).log →
    RelayEntry.toClient bs ∈ y.log ∨ ∃ n, IoEntry.tx (.data n) ∈ es ∧ bs.length ≤ n := by
  induction es with
  | nil => intro y bs h; exact .inl h
  | cons e es ih =>
    intro y bs h
    rcases ih (y := y.send e) h with h' | ⟨n, h1, h2⟩
    · cases e with
      | tx m =>
        cases m with
        | data n =>
          rcases List.mem_append.mp h' with h' | h'
          · exact .inl h'
          · rw [List.mem_singleton] at h'
            cases h'
            exact .inr ⟨n, by simp, by rw [List.length_take]; omega⟩
        | close =>
          rcases List.mem_append.mp h' with h' | h'
          · exact .inl h'
          · simp at h'
        | _ => exact .inl h'
      | _ => exact .inl h'
    · exact .inr ⟨n, List.mem_cons_of_mem _ h1, h2⟩

/-- Data is sent in small pieces; what is recorded stays. -/
structure RelaySmall (y : Relay) : Prop where
  data : smallData y.ch.sock.log
  pieces : ∀ bs, RelayEntry.toClient bs ∈ y.log → bs.length ≤ 4096

theorem act_small (nd) {y : Relay} (h : smallData y.ch.sock.log) (ev : RelayEvent) : smallData (y.act nd ev).sock.log := by
  have hh : ∀ e, smallData (y.ch.handle nd e).sock.log := by
    intro e
    rcases told_handle nd h e with h | h
    · exact h.small
    · exact h.1
  unfold Relay.act
  split
  · exact h.snoc (by intro n hn; cases hn)
  · split
    · exact h
    · exact hh _

theorem before_log (y : Relay) (ev : RelayEvent) : ∃ l, (y.before ev).log = y.log ++ l ∧ ∀ bs, RelayEntry.toClient bs ∉ l := by
  unfold Relay.before
  split
  · rename_i bs
    cases y.fin || y.broken
    · exact ⟨[.host bs], rfl, by simp⟩
    · exact ⟨[], by simp, by simp⟩
  · exact ⟨[.hostEnds], rfl, by simp⟩
  · exact ⟨[.resets], rfl, by simp⟩
  · exact ⟨[.clientCloses], rfl, by simp⟩
  · cases y.breaks ev
    · exact ⟨[], by simp, by simp⟩
    · exact ⟨[.clientBreaks], rfl, by simp⟩

theorem relay_grows (nd) (y : Relay) (ev : RelayEvent) : y.log <+: (y.step nd ev).log := by
  unfold Relay.step
  split
  · exact List.prefix_rfl
  · obtain ⟨l, hl, _⟩ := before_log y ev
    have := (sends_facts ((y.act nd ev).sock.log.drop (y.before ev).ch.sock.log.length)
      { y.before ev with ch := y.act nd ev,
                         log := (y.before ev).log ++ ((y.act nd ev).buf.log.drop (y.before ev).ch.buf.log.length).map relayOfBuf }).grows
    refine List.IsPrefix.trans ?_ (this.trans (List.prefix_append _ _))
    simp only
    rw [hl, List.append_assoc]
    exact List.prefix_append _ _

theorem RelaySmall.step (nd) {y : Relay} (h : RelaySmall y) (ev : RelayEvent) : RelaySmall (y.step nd ev) := by
  cases hs : y.ch.stop with
  | some _ =>
    have : y.step nd ev = y := by simp only [Relay.step, hs]
    rw [this]; exact h
  | none =>
    have ha := act_small nd h.data ev
    refine ⟨by rw [relay_ch nd hs]; exact ha, fun bs hb => ?_⟩
    simp only [Relay.step, hs, Relay.absorb] at hb
    rcases List.mem_append.mp hb with hb | hb
    · rcases sends_small _ hb with hb | ⟨n, h1, h2⟩
      · rcases List.mem_append.mp hb with hb | hb
        · obtain ⟨l, hl, hn⟩ := before_log y ev
          rw [hl] at hb
          rcases List.mem_append.mp hb with hb | hb
          · exact h.pieces bs hb
          · exact absurd hb (hn bs)
        · obtain ⟨e, _, he⟩ := List.mem_map.mp hb
          cases e <;> cases he
      · exact Nat.le_trans h2 (ha n (List.mem_of_mem_drop h1))
    · cases hst : (y.act nd ev).stop with
      | none => simp [hst] at hb
      | some st => cases st <;> simp [hst, IoStop.relay] at hb

theorem relay_small (nd w) (evs : List RelayEvent) : RelaySmall (Relay.run nd (Relay.init w) evs) := by
  induction evs using Aux.snoc_ind with
  | h0 => exact ⟨fun _ hn => (nomatch hn), fun _ hb => (nomatch hb)⟩
  | h1 evs ev ih => rw [Relay.run_snoc]; exact ih.step nd ev

/-- The message of the client is recorded; or the client has broken the rules. -/
theorem relay_marked (nd) {w} (hw : 0 < w) (evs : List RelayEvent) (hs : (Relay.run nd (Relay.init w) evs).ch.stop = none) (ev : RelayEvent) :
    ((Relay.run nd (Relay.init w) evs).step nd ev).log.filter RelayEntry.byClient =
      (Relay.run nd (Relay.init w) evs).log.filter RelayEntry.byClient ++ ev.mark.toList ∨
    (((Relay.run nd (Relay.init w) evs).step nd ev).log.filter RelayEntry.byClient =
      (Relay.run nd (Relay.init w) evs).log.filter RelayEntry.byClient ∧
      ((Relay.run nd (Relay.init w) evs).step nd ev).ch.stop ≠ none) := by
  have v1 := (relay_run nd hw evs).view
  have v2 := (relay_run nd hw (evs ++ [ev])).view
  have sm := (relay_small nd w evs).data
  rw [Relay.run_snoc] at v2
  generalize Relay.run nd (Relay.init w) evs = y at *
  rw [byClient_view, byClient_view, v1, v2, relay_ch nd hs]
  have hm : ∀ e, y.event ev = some e → ev.mark.toList = e.got.filterMap clientOf := by
    intro e he
    cases ev <;> simp only [Relay.event, Option.some.injEq, reduceCtorEq] at he
    all_goals first
      | (subst he; rfl)
      | (cases hb : y.broken <;> rw [hb] at he <;> cases he; rfl)
  have key : ∀ e, y.event ev = some e →
      ((y.ch.handle nd e).buf.log.filter BufEntry.isRecv).filterMap clientOf =
        (y.ch.buf.log.filter BufEntry.isRecv).filterMap clientOf ++ ev.mark.toList ∨
      (((y.ch.handle nd e).buf.log.filter BufEntry.isRecv).filterMap clientOf =
        (y.ch.buf.log.filter BufEntry.isRecv).filterMap clientOf ∧ (y.ch.handle nd e).stop ≠ none) := by
    intro e he
    rcases told_handle nd sm e with h | ⟨_, h2, h3⟩
    · exact .inl (by rw [h.told, List.filterMap_append, hm e he])
    · exact .inr ⟨by rw [h2], by rw [h3]; nofun⟩
  have none : y.event ev = none → ev.mark = none := by
    intro he
    cases ev <;> first | rfl | cases he
  unfold Relay.act
  split
  · exact .inl (by simp [SockCh.close, RelayEvent.mark])
  · split
    · rename_i he
      exact .inl (by rw [none he]; simp)
    · rename_i e he
      exact key e he

end Lukko
