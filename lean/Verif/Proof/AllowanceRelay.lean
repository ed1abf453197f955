import Verif.Proof.TunnelRelay
import Verif.Spec.Allowance
import Verif.Proof.HostHeard
/-
  How much a single forwarded connection sends to the client, and how much the client allows.
-/
namespace Lukko
open Model Spec

/-! ### The record of the channel grows, and by what the client has allowed -/

/-- Only what the client says counts. -/
structure Inward (f : IoEntry → Nat) : Prop where
  tx : ∀ m, f (.tx m) = 0
  kexinit : f .kexinit = 0
  newkeys : f .newkeys = 0

theorem granted_inward : Inward IoEntry.granted := ⟨fun _ => rfl, rfl, rfl⟩
theorem got_inward : Inward IoEntry.gotBytes := ⟨fun _ => rfl, rfl, rfl⟩

variable {f : IoEntry → Nat}

structure Widened (f : IoEntry → Nat) (L : List IoEntry) (G : Nat) (s : Sock) : Prop where
  inw : Inward f
  log : L <+: s.log
  granted : total f s.log = G

theorem Widened.emit {L G s} (h : Widened f L G s) {e : IoEntry} (he : f e = 0) : Widened f L G (s.emit e) :=
  ⟨h.inw, h.log.trans (List.prefix_append _ _), by simp only [Sock.emit, total_snoc, he]; exact h.granted⟩

theorem Widened.of {L G s s'} (h : Widened f L G s) (hl : s'.log = s.log) : Widened f L G s' := ⟨h.inw, by rw [hl]; exact h.log, by rw [hl]; exact h.granted⟩

theorem Widened.keeps (f L G) : Keeps Sock.ops (fun s _ => Widened f L G s) where
  eof := fun h => h.of rfl
  stop := by
    intro g b c k e g' h hd
    cases k with
    | wouldBlock => simp [Sock.ops] at hd
    | failed => simp [Sock.ops] at hd; obtain ⟨rfl, _⟩ := hd; exact h
    | wrote m =>
      simp only [Sock.ops] at hd
      split at hd
      · simp at hd; obtain ⟨rfl, _⟩ := hd; exact h.of rfl
      · simp at hd
  data := by
    intro g b c k n g' q h hd
    cases k with
    | wouldBlock => simp [Sock.ops] at hd; obtain ⟨rfl, rfl⟩ := hd; exact h.of rfl
    | failed => simp [Sock.ops] at hd
    | wrote m =>
      simp only [Sock.ops] at hd
      split at hd
      · simp at hd
      · rename_i s' hc
        simp at hd; obtain ⟨rfl, rfl⟩ := hd
        simp only [Sock.consume] at hc
        split at hc
        · split at hc
          · simp at hc; subst hc
            exact (h.emit (e := .tx (.adjust (RECEIVE_WINDOW - (g.recvWin - min m c.length)))) (h.inw.tx _)).of rfl
          · simp at hc; subst hc; exact h.of rfl
        · simp at hc

theorem widened_read {L G nd} {y : SockCh} (h : Widened f L G y.sock) (r) : Widened f L G (y.onRead nd r).1.sock := by
  have hc : Widened f L G y.close.sock := h.emit (h.inw.tx _)
  unfold SockCh.onRead
  simp only
  split
  · cases nd
    · exact h
    · exact hc
  · split
    · exact hc
    · rename_i m
      exact (h.emit (e := .tx (.data (min (m + 1) (min 4096 y.sock.sendWin)))) (h.inw.tx _)).of rfl

theorem widened_hup {L G} {z : SockCh × Bool} (h : Widened f L G z.1.sock) (hup) : Widened f L G (SockCh.onHup hup z).sock := by
  obtain ⟨y, e⟩ := z
  unfold SockCh.onHup
  simp only
  split
  · exact h
  · cases hup && e
    · exact h
    · exact h.emit (h.inw.tx _)

theorem widened_ready {L G nd} {y : SockCh} (h : Widened f L G y.sock) (w r hup) : Widened f L G (y.onReady nd w r hup).sock := by
  have hw : Widened f L G (y.onWrite w).sock := by
    cases w with
    | none => exact h
    | some ks => exact (Widened.keeps f L G).read (ks := ks) (g := { y.sock with wr := false }) (b := y.buf) (h.of rfl)
  unfold SockCh.onReady
  split
  · exact hw
  · refine widened_hup ?_ hup
    cases r with
    | none => exact hw
    | some r => exact widened_read hw r

/-- What the event counts. -/
def Model.SockEvent.weight (f : IoEntry → Nat) : SockEvent → Nat
  | .recvAdjust n => f (.rx (.adjust n))
  | .recvData bs _ => f (.rx (.data bs.length))
  | .recvExt n => f (.rx (.ext n))
  | .recvEof => f (.rx .eof)
  | _ => 0

theorem widened_handle (hf : Inward f) (nd) (y : SockCh) (ev : SockEvent) :
    y.sock.log <+: (y.handle nd ev).sock.log ∧
    total f (y.handle nd ev).sock.log ≤ total f y.sock.log + ev.weight f := by
  have h0 : Widened f y.sock.log (total f y.sock.log) y.sock := ⟨hf, List.prefix_rfl, rfl⟩
  have h1 : ∀ m, Widened f y.sock.log (total f y.sock.log + f (.rx m)) (y.sock.emit (.rx m)) := fun m =>
    ⟨hf, List.prefix_append _ _, by simp only [Sock.emit, total_snoc]⟩
  have fin : ∀ {s : Sock}, Widened f y.sock.log (total f y.sock.log) s →
      y.sock.log <+: s.log ∧ total f s.log ≤ total f y.sock.log + ev.weight f :=
    fun h => ⟨h.log, by rw [h.granted]; exact Nat.le_add_right _ _⟩
  have fin1 : ∀ {s : Sock}, Widened f y.sock.log (total f y.sock.log + ev.weight f) s →
      y.sock.log <+: s.log ∧ total f s.log ≤ total f y.sock.log + ev.weight f :=
    fun h => ⟨h.log, Nat.le_of_eq h.granted⟩
  cases ev with
  | recvData bs k =>
    simp only [SockCh.handle]
    split
    · exact fin h0
    · exact fin1 ((Widened.keeps _ _ _).onData (h1 _) fun h => h)
  | recvExt n =>
    simp only [SockCh.handle]
    split
    · exact fin h0
    · exact fin1 ((h1 (.ext n)).of rfl)
  | recvEof => exact fin1 ((Widened.keeps _ _ _).onEof (h1 _) fun h => h)
  | recvAdjust n =>
    simp only [SockCh.handle]
    split
    · exact fin h0
    · exact fin1 ((h1 (.adjust n)).of rfl)
  | blocked => exact fin ((h0.emit (e := .kexinit) hf.kexinit).of rfl)
  | unblocked => exact fin ((h0.emit (e := .newkeys) hf.newkeys).of rfl)
  | error =>
    refine fin ?_
    simp only [SockCh.handle]
    cases y.sock.rd || y.sock.wr
    · exact h0
    · exact h0.emit (hf.tx _)
  | ready w r hup => exact fin (widened_ready h0 _ _ _)

/-! ### The forwarded connection -/

/-- What the event counts. -/
def Model.RelayEvent.weight (f : IoEntry → Nat) : RelayEvent → Nat
  | .clientAdjust n => f (.rx (.adjust n))
  | .clientData bs _ => f (.rx (.data bs.length))
  | .clientExt n => f (.rx (.ext n))
  | .clientEof => f (.rx .eof)
  | _ => 0

theorem event_weight {y : Relay} {ev : RelayEvent} {e : SockEvent} (h : y.event ev = some e) : e.weight f = ev.weight f := by
  cases ev with
  | error =>
    simp only [Relay.event] at h
    cases hb : y.broken with
    | false => rw [hb] at h; cases h
    | true => rw [hb] at h; cases h; rfl
  | _ => cases h <;> rfl

theorem widened_act (hf : Inward f) (nd) (y : Relay) (ev : RelayEvent) :
    y.ch.sock.log <+: (y.act nd ev).sock.log ∧
    total f (y.act nd ev).sock.log ≤ total f y.ch.sock.log + ev.weight f := by
  unfold Relay.act
  split
  · refine ⟨List.prefix_append _ _, ?_⟩
    simp only [SockCh.close, Sock.emit, total_snoc, hf.tx]
    exact Nat.le_add_right _ _
  · split
    · exact ⟨List.prefix_rfl, Nat.le_add_right _ _⟩
    · rename_i e he
      rw [← event_weight he]
      exact widened_handle hf nd y.ch e

/-- Whatever happens, only what the client says counts. -/
theorem relay_widened (hf : Inward f) (nd) (y : Relay) (ev : RelayEvent) :
    y.ch.sock.log <+: (y.step nd ev).ch.sock.log ∧
    total f (y.step nd ev).ch.sock.log ≤ total f y.ch.sock.log + ev.weight f := by
  cases hs : y.ch.stop with
  | some _ =>
    have : y.step nd ev = y := by simp only [Relay.step, hs]
    rw [this]; exact ⟨List.prefix_rfl, Nat.le_add_right _ _⟩
  | none => rw [relay_ch nd hs]; exact widened_act hf nd y ev

/-- What is sent to the client is in the record of the channel. -/
structure Owes (w : Nat) (y : Relay) : Prop where
  inv : SockChInv w y.ch
  heard : (clientHeard y.log).length ≤ total IoEntry.sentBytes y.ch.sock.log

theorem before_heard (y : Relay) (ev : RelayEvent) : clientHeard (y.before ev).log = clientHeard y.log ∧ (y.before ev).ch = y.ch := by
  obtain ⟨l, hl, hn⟩ := before_log y ev
  constructor
  · rw [hl, clientHeard_append]
    have : clientHeard l = [] := by
      unfold clientHeard
      rw [List.flatMap_eq_nil_iff]
      intro e he
      cases e with
      | toClient bs => exact absurd he (hn bs)
      | _ => rfl
    rw [this, List.append_nil]
  · unfold Relay.before
    split
    · cases y.fin || y.broken <;> rfl
    · rfl
    · rfl
    · rfl
    · cases y.breaks ev <;> rfl

theorem data_sent (es : List IoEntry) : total dataBytes es ≤ total IoEntry.sentBytes es := by
  induction es with
  | nil => exact Nat.le_refl _
  | cons e es ih =>
    have he : dataBytes e ≤ e.sentBytes := by
      cases e with
      | tx m => cases m <;> first | exact Nat.le_refl _ | exact Nat.zero_le _
      | _ => exact Nat.zero_le _
    simp only [total, List.map_cons, List.sum_cons] at ih ⊢
    omega

theorem Owes.step {w} (nd) {y : Relay} (h : Owes w y) (ev : RelayEvent) : Owes w (y.step nd ev) := by
  cases hs : y.ch.stop with
  | some _ =>
    have : y.step nd ev = y := by simp only [Relay.step, hs]
    rw [this]; exact h
  | none =>
    refine ⟨?_, ?_⟩
    · rw [relay_ch nd hs]
      unfold Relay.act
      split
      · exact h.inv.close
      · split
        · exact h.inv
        · exact h.inv.handle hs nd _
    · rw [relay_ch nd hs]
      obtain ⟨b1, b2⟩ := before_heard y ev
      obtain ⟨l, hl⟩ := (widened_act granted_inward nd y ev).1
      simp only [Relay.step, hs, Relay.absorb]
      rw [clientHeard_append, (sends_facts _ _).heard, b2, ← hl, List.drop_left]
      have hz : clientHeard (((y.act nd ev).stop.map IoStop.relay).getD []) = [] := by
        cases (y.act nd ev).stop with
        | none => rfl
        | some st => cases st <;> rfl
      simp only
      rw [hz, List.append_nil, clientHeard_append, clientHeard_map, List.append_nil, b1, total_append', List.length_append, List.length_take]
      have := h.heard
      have := data_sent l
      omega
where
  total_append' {f : IoEntry → Nat} {a b : List IoEntry} : total f (a ++ b) = total f a + total f b := by
    simp [total]

theorem relay_owes (nd w) (evs : List RelayEvent) : Owes w (Relay.run nd (Relay.init w) evs) := by
  induction evs using Aux.snoc_ind with
  | h0 => exact ⟨.init w, Nat.le_refl _⟩
  | h1 evs ev ih => rw [Relay.run_snoc]; exact ih.step nd ev

/-- Bytes sent never exceed the initial window and all adjustments. -/
theorem relay_within (nd w) (evs : List RelayEvent) : (clientHeard (Relay.run nd (Relay.init w) evs).log).length ≤
    w + total IoEntry.granted (Relay.run nd (Relay.init w) evs).ch.sock.log := by
  have h := relay_owes nd w evs
  have := h.inv.acc.send
  have := h.heard
  omega

/-! ### The messages -/

theorem bigEndian_u32 {k : Nat} (hk : k < 2 ^ 32) : bigEndian (u32 k) = k := by
  simp only [bigEndian, u32, List.foldl_cons, List.foldl_nil, UInt8.toNat_ofNat']
  omega

theorem allowedBy_adjust {n k : Nat} (hk : k < 2 ^ 32) : allowedBy n (93 :: windowAdjustBody n k) = k := by
  unfold allowedBy
  have h1 : (93 :: windowAdjustBody n k).take 5 = 93 :: u32 n := rfl
  have h2 : (93 :: windowAdjustBody n k).drop 5 = u32 k := rfl
  rw [if_pos ⟨h1, rfl⟩, h2, bigEndian_u32 hk]

theorem allowed_append (n : Nat) (a b : List Bytes) : allowed n (a ++ b) = allowed n a + allowed n b := by
  simp [allowed]

theorem allowed_prefix {n : Nat} {a b : List Bytes} (h : a <+: b) : allowed n a ≤ allowed n b := by
  obtain ⟨c, rfl⟩ := h
  rw [allowed_append]
  exact Nat.le_add_right _ _

theorem dataTotal_append (n : Nat) (a b : List Bytes) : dataTotal n (a ++ b) = dataTotal n a + dataTotal n b := by
  simp [dataTotal]

/-- Data for another channel does not count, data for this one does. -/
theorem dataIn_data (n peer : Nat) (bs : Bytes) :
    dataIn n (94 :: channelDataBody peer bs) = if u32 peer = u32 n then bs.length else 0 := by
  have h1 : (u32 peer).length = 4 := rfl
  unfold dataIn channelDataBody
  rw [List.take_succ_cons, List.take_left' h1]
  by_cases h : u32 peer = u32 n
  · rw [if_pos (by rw [h]), if_pos h]
    simp [str, h1, u32]
  · rw [if_neg (by simpa using h), if_neg h, if_neg (by simp)]

theorem dataIn_extended (n peer : Nat) (bs : Bytes) {type : Nat} :
    dataIn n (95 :: channelExtendedDataBody peer type bs) = if u32 peer = u32 n then bs.length else 0 := by
  have h1 : (u32 peer).length = 4 := rfl
  unfold dataIn channelExtendedDataBody
  rw [List.take_succ_cons, List.take_left' h1]
  rw [if_neg (by simp)]
  by_cases h : u32 peer = u32 n
  · rw [if_pos (by rw [h]), if_pos h]
    simp [str, u32]
  · rw [if_neg (by simpa using h), if_neg h]

end Lukko
