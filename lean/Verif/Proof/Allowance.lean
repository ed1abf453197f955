import Verif.Proof.LedgerFull
import Verif.Prop.Farewell
/-
  Every channel sends at most what the client has allowed.
-/
namespace Lukko
open Spec Model

variable {σ : Type} {x : HouseEnv σ}

theorem Spec.Grant.extend {log : List AuthEntry} {peer n k : Nat} (h : Grant log peer n k) (es : List AuthEntry) :
    ∃ k', Grant (log ++ es) peer n k' ∧ k ≤ k' := by
  cases h with
  | opened h =>
    rename_i pre post type window size rest
    refine ⟨_, .opened (pre := pre) (post := post ++ es) (by rw [h]; simp; rfl), ?_⟩
    rw [clientMessages_append, allowed_append]
    omega
  | confirmed h =>
    rename_i pre post window size rest
    refine ⟨_, .confirmed (pre := pre) (post := post ++ es) (by rw [h]; simp; rfl), ?_⟩
    rw [clientMessages_append, allowed_append]
    omega

theorem Spec.Given.extend {log : List AuthEntry} {peer n k : Nat} (h : Given log peer n k) (es : List AuthEntry) :
    ∃ k', Given (log ++ es) peer n k' ∧ k ≤ k' := by
  cases h with
  | opened h =>
    rename_i pre post type window size rest
    refine ⟨_, .opened (pre := pre) (post := post ++ es) (by rw [h]; simp; rfl), ?_⟩
    rw [clientMessages_append, dataTotal_append]
    omega
  | confirmed h =>
    rename_i pre post window size rest
    refine ⟨_, .confirmed (pre := pre) (post := post ++ es) (by rw [h]; simp; rfl), ?_⟩
    rw [clientMessages_append, dataTotal_append]
    omega

/-- What was sent is allowed, and what was allowed to the client is what it has sent. -/
def Within (log : List AuthEntry) (peer n sent gave : Nat) : Prop :=
  (∃ k, Grant log peer n k ∧ sent ≤ k) ∧ ∃ k, Given log peer n k ∧ gave ≤ k

/-- What a session has allowed to the client, or a forwarded connection. -/
def sessionGave (s : Session) : Nat := total IoEntry.weGranted (sessIo s.ch.s.log)
def tunnelGave (t : Tunnel) : Nat := (t.relay.map fun r => total IoEntry.weGranted r.ch.sock.log).getD 0

/-- What a session has sent, or a forwarded connection. -/
def sessionSent (s : Session) : Nat := total IoEntry.sentBytes (sessIo s.ch.s.log)
def tunnelSent (t : Tunnel) : Nat := (t.relay.map fun r => (clientHeard r.log).length).getD 0

structure Budgets (h : House σ) : Prop where
  sessions : ∀ s ∈ h.sessions, Within h.server.auth.log s.peer s.number (sessionSent s) (sessionGave s)
  tunnels : ∀ t ∈ h.tunnels, t.relay.isSome = true → Within h.server.auth.log t.peer t.number (tunnelSent t) (tunnelGave t)
  calls : ∀ c ∈ h.board.calls, c.line.relay.isSome = true →
    Within h.server.auth.log c.line.peer c.line.number (tunnelSent c.line) (tunnelGave c.line)

/-- The client's adjustments, as the session has recorded them. -/
theorem meaning_granted {n : Nat} {ms : List Bytes} {es : List SessEntry} (h : Meaning n ms es) :
    total IoEntry.granted (sessIo es) ≤ allowed n ms := by
  induction h with
  | nil => exact Nat.le_refl _
  | heard _ he ih =>
    rename_i ms es m e _
    have : total IoEntry.granted (sessIo [e]) ≤ allowed n [m] := by
      cases he with
      | adjust hk =>
        rename_i k
        show k + 0 ≤ allowedBy n (93 :: windowAdjustBody n k) + 0
        rw [allowedBy_adjust hk]
        exact Nat.le_refl _
      | _ => exact Nat.zero_le _
    rw [sessIo_append, total_append, allowed_append]
    omega
  | other _ _ ih => rw [allowed_append]; omega

theorem granted_filter (log : List SessEntry) :
    total IoEntry.granted (sessIo (log.filter SessEntry.byClient)) = total IoEntry.granted (sessIo log) := by
  induction log with
  | nil => rfl
  | cons e log ih =>
    have hc : ∀ l : List SessEntry, total IoEntry.granted (sessIo (e :: l)) = total IoEntry.granted (sessIo [e]) + total IoEntry.granted (sessIo l) := by
      intro l
      rw [← total_append, ← sessIo_append]
      rfl
    rw [hc]
    cases hb : e.byClient with
    | true => rw [List.filter_cons_of_pos hb, hc, ih]
    | false =>
      rw [List.filter_cons_of_neg (by rw [hb]; nofun), ih]
      have : total IoEntry.granted (sessIo [e]) = 0 := by
        cases e with
        | io e => cases e <;> first | rfl | cases hb
        | sent f bs => cases f <;> rfl
        | data bs => cases hb
        | _ => rfl
      omega

/-- The client's data, as the session has recorded it. -/
theorem meaning_got {n : Nat} {ms : List Bytes} {es : List SessEntry} (h : Meaning n ms es) :
    total IoEntry.gotBytes (sessIo es) ≤ dataTotal n ms := by
  induction h with
  | nil => exact Nat.le_refl _
  | heard _ he ih =>
    rename_i ms es m e _
    have : total IoEntry.gotBytes (sessIo [e]) ≤ dataTotal n [m] := by
      cases he with
      | data hk =>
        rename_i bs
        show bs.length + 0 ≤ dataIn n (94 :: channelDataBody n bs) + 0
        rw [dataIn_data, if_pos rfl]
        exact Nat.le_refl _
      | ext ht hk =>
        rename_i t bs
        show bs.length + 0 ≤ dataIn n (95 :: channelExtendedDataBody n t bs) + 0
        rw [dataIn_extended, if_pos rfl]
        exact Nat.le_refl _
      | _ => exact Nat.zero_le _
    rw [sessIo_append, total_append, dataTotal_append]
    omega
  | other _ _ ih => rw [dataTotal_append]; omega

theorem got_filter (log : List SessEntry) :
    total IoEntry.gotBytes (sessIo (log.filter SessEntry.byClient)) = total IoEntry.gotBytes (sessIo log) := by
  induction log with
  | nil => rfl
  | cons e log ih =>
    have hc : ∀ l : List SessEntry, total IoEntry.gotBytes (sessIo (e :: l)) = total IoEntry.gotBytes (sessIo [e]) + total IoEntry.gotBytes (sessIo l) := by
      intro l
      rw [← total_append, ← sessIo_append]
      rfl
    rw [hc]
    cases hb : e.byClient with
    | true => rw [List.filter_cons_of_pos hb, hc, ih]
    | false =>
      rw [List.filter_cons_of_neg (by rw [hb]; nofun), ih]
      have : total IoEntry.gotBytes (sessIo [e]) = 0 := by
        cases e with
        | io e => cases e <;> first | rfl | cases hb
        | sent f bs => cases f <;> rfl
        | data bs => cases hb
        | _ => rfl
      omega

theorem session_returns (cfg r w evs) : total IoEntry.weGranted (sessIo (SessCh.run cfg (SessCh.init r w) evs).s.log) ≤
    total IoEntry.gotBytes (sessIo (SessCh.run cfg (SessCh.init r w) evs).s.log) := by
  have h1 := C25_session_grant_partial (cfg := cfg) (r := r) (w := w) (evs := evs)
  have h2 := (sess_acc cfg r w evs).gotN
  have h3 := (C68_prefix (cfg := cfg) (r := r) (w := w) (evs := evs)).length_le
  have h4 : ∀ log, (inputBytes log).length ≤ (inputOrLost log).length := by
    intro log
    induction log with
    | nil => exact Nat.le_refl _
    | cons e log ih =>
      have ea : inputBytes (e :: log) = inputBytes [e] ++ inputBytes log := by simp [inputBytes]
      have eb : inputOrLost (e :: log) = inputOrLost [e] ++ inputOrLost log := by simp [inputOrLost]
      rw [ea, eb, List.length_append, List.length_append]
      have : (inputBytes [e]).length ≤ (inputOrLost [e]).length := by
        cases e <;> simp [inputBytes, inputOrLost]
      omega
  have := h4 (SessCh.run cfg (SessCh.init r w) evs).s.log
  omega

/-! ### The buffer of a forwarded connection -/

structure SockBuf (y : SockCh) : Prop where
  eq : y.stop = none → BufEq y.buf
  le : taken y.buf.log <+: bufBytes y.buf.log

theorem SockBuf.ofBuf {r : Sock × Buf × Option BufStop} (h : BufExact r) : SockBuf (SockCh.ofBuf r) := by
  obtain ⟨s, b, st⟩ := r
  refine ⟨fun hs => h.1 ?_, h.2⟩
  simpa [SockCh.ofBuf] using hs

theorem SockBuf.of {y z : SockCh} (h : SockBuf y) (hy : y.stop = none) (hb : z.buf = y.buf) : SockBuf z :=
  ⟨fun _ => by rw [hb]; exact h.eq hy, by rw [hb]; exact h.le⟩

theorem SockBuf.onRead {y} (h : SockBuf y) (hy : y.stop = none) (nd r) : SockBuf (y.onRead nd r).1 := by
  refine h.of hy ?_
  unfold SockCh.onRead
  simp only
  split
  · cases nd <;> rfl
  · split <;> rfl

theorem SockBuf.onHup {z} (h : SockBuf z.1) (hup) : SockBuf (SockCh.onHup hup z) := by
  obtain ⟨y, e⟩ := z
  unfold SockCh.onHup
  simp only
  split
  · exact h
  · rename_i hs
    cases hup && e
    · exact h
    · exact h.of hs rfl

theorem SockBuf.onReady {y} (h : SockBuf y) (hy : y.stop = none) (nd wk r hup) : SockBuf (y.onReady nd wk r hup) := by
  unfold SockCh.onReady
  have h1 : SockBuf (y.onWrite wk) := by
    cases wk with
    | none => exact h
    | some ks => exact .ofBuf ((h.eq hy).read _)
  generalize y.onWrite wk = y1 at *
  cases hs1 : y1.stop with
  | some _ => exact h1
  | none =>
    refine SockBuf.onHup ?_ hup
    cases r with
    | none => exact h1
    | some r => exact h1.onRead hs1 nd r

theorem SockBuf.handle {y} (h : SockBuf y) (hy : y.stop = none) (nd ev) : SockBuf (y.handle nd ev) := by
  cases ev with
  | recvData bs k =>
    simp only [SockCh.handle]
    split
    · exact h.of hy rfl
    · exact .ofBuf ((h.eq hy).onData _ _ _)
  | recvExt n =>
    simp only [SockCh.handle]
    split <;> exact h.of hy rfl
  | recvEof => exact .ofBuf ((h.eq hy).onEof _)
  | recvAdjust n =>
    simp only [SockCh.handle]
    split <;> exact h.of hy rfl
  | blocked => exact h.of hy rfl
  | unblocked => exact h.of hy rfl
  | error =>
    simp only [SockCh.handle]
    cases y.sock.rd || y.sock.wr <;> exact h.of hy rfl
  | ready wk r hup => exact h.onReady hy _ _ _ _

theorem relay_buf (nd w) (evs : List RelayEvent) : SockBuf (Relay.run nd (Relay.init w) evs).ch := by
  induction evs using Aux.snoc_ind with
  | h0 => exact ⟨fun _ => rfl, List.prefix_rfl⟩
  | h1 evs ev ih =>
    rw [Relay.run_snoc]
    cases hs : (Relay.run nd (Relay.init w) evs).ch.stop with
    | some _ =>
      have : (Relay.run nd (Relay.init w) evs).step nd ev = Relay.run nd (Relay.init w) evs := by simp only [Relay.step, hs]
      rw [this]; exact ih
    | none =>
      rw [relay_ch nd hs]
      unfold Relay.act
      split
      · exact ih.of hs rfl
      · split
        · exact ih
        · exact ih.handle hs nd _

/-- Only what was received is allowed again. -/
theorem relay_returns (nd w) (evs : List RelayEvent) : total IoEntry.weGranted (Relay.run nd (Relay.init w) evs).ch.sock.log ≤
    total IoEntry.gotBytes (Relay.run nd (Relay.init w) evs).ch.sock.log := by
  have h := (relay_owes nd w evs).inv.acc
  have h1 := h.recv
  have h2 := h.got
  have h3 := h.le
  have h4 := (relay_buf nd w evs).le.length_le
  omega

theorem line_within {nd : Bool} {head : Bytes} {t : Tunnel} {r : Relay} {post : List AuthEntry} (hr : t.relay = some r)
    (h : TLive nd head t r post) : tunnelSent t ≤ t.window + allowed t.number (clientMessages post) ∧
    tunnelGave t ≤ dataTotal t.number (clientMessages post) := by
  obtain ⟨evs, he⟩ := h.isRun
  have h1 := relay_within nd t.window evs
  have h3 := relay_returns nd t.window evs
  rw [← he] at h1 h3
  have h2 := h.paid
  have h4 := h.got
  unfold tunnelSent tunnelGave
  simp only [hr, Option.map_some, Option.getD_some]
  omega

theorem Budgets.of (hx : EnvOk x.host.server.trans) {h : House σ} (hi : HoInv x h) : Budgets h where
  sessions := by
    intro s hs
    obtain ⟨evs, r⟩ := hi.host
    obtain ⟨y, pre, post, hk⟩ := (HInv.of_run (x := x.host) hx r).ok s hs
    obtain ⟨w, m, rest, pre', es, h1, h2⟩ := hk.ch
    obtain ⟨ms, m1, m2, _⟩ := hk.said
    have hlog : h.server.auth.log = pre' ++ .received 90 (channelOpenBody (ascii "session") s.peer w m rest) :: .openSession :: post := by
      rw [show h.server.auth.log = _ from hk.opened, h1]; simp
    refine ⟨⟨_, .opened hlog, ?_⟩, ⟨_, .opened hlog, ?_⟩⟩
    · have a1 : sessionSent s ≤ w + total IoEntry.granted (sessIo s.ch.s.log) := by
        unfold sessionSent
        rw [h2]
        exact C24_session
      have a2 := meaning_granted m2
      rw [granted_filter] at a2
      have a3 := allowed_prefix (n := s.number) m1
      show _ ≤ w + allowed s.number (clientMessages post)
      omega
    · have a1 : sessionGave s ≤ total IoEntry.gotBytes (sessIo s.ch.s.log) := by
        unfold sessionGave
        rw [h2]
        exact session_returns _ _ _ _
      have a2 := meaning_got m2
      rw [got_filter] at a2
      obtain ⟨l, hl⟩ := m1
      show _ ≤ dataTotal s.number (clientMessages post)
      rw [← hl, dataTotal_append]
      omega
  tunnels := by
    intro t ht hs
    obtain ⟨r, hr⟩ := Option.isSome_iff_exists.mp hs
    obtain ⟨evs, e⟩ := hi.hub
    obtain ⟨pre, post, hk⟩ := (HubInv.of_run (x := x.hub) hx e).ok t ht
    obtain ⟨ty, m, rest, _, o2⟩ := hk.opened
    obtain ⟨a, b, hp, hl⟩ := hk.live r hr
    have hlog : h.server.auth.log = pre ++ .received 90 (channelOpenBody ty t.peer t.window m rest) :: t.target :: post := by
      rw [show h.server.auth.log = _ from o2]; simp
    have h1 := line_within hr hl
    have h2 : clientMessages (t.target :: post) = clientMessages (t.target :: a) ++ clientMessages b := by
      rw [hp, show t.target :: (a ++ b) = (t.target :: a) ++ b from rfl, clientMessages_append]
    refine ⟨⟨_, .opened hlog, ?_⟩, ⟨_, .opened hlog, ?_⟩⟩
    · rw [h2, allowed_append]; omega
    · rw [h2, dataTotal_append]; omega
  calls := by
    intro c hc hs
    obtain ⟨r, hr⟩ := Option.isSome_iff_exists.mp hs
    obtain ⟨evs, e⟩ := hi.desk
    obtain ⟨_, _, pre, size, rest, post, hlog, hl⟩ := ((DInv.of_run (x := x.hub) hx e).ok c hc).live r hr
    have hlog : h.server.auth.log = pre ++ .received 91 (channelOpenConfirmationBody c.line.number c.line.peer c.line.window size rest) ::
        .channelMessage 91 (c.answer size rest) :: post := by
      rw [show h.server.auth.log = _ from hlog]; simp [Incoming.answer]
    have h1 := line_within hr hl
    have h2 : clientMessages (.channelMessage 91 (c.answer size rest) :: post) = clientMessages post := rfl
    refine ⟨⟨_, .confirmed hlog, ?_⟩, ⟨_, .confirmed hlog, ?_⟩⟩
    · rw [h2]; exact h1.1
    · rw [h2]; exact h1.2

theorem sessionSent_destroy (s : Session) : sessionSent s.destroy = sessionSent s := by
  unfold sessionSent
  rw [show s.destroy.ch.s.log = s.ch.s.dropChild.log from rfl, dropChild_kills, sessIo_append, total_append]
  cases s.ch.s.child.isSome <;> rfl

theorem sessionGave_destroy (s : Session) : sessionGave s.destroy = sessionGave s := by
  unfold sessionGave
  rw [show s.destroy.ch.s.log = s.ch.s.dropChild.log from rfl, dropChild_kills, sessIo_append, total_append]
  cases s.ch.s.child.isSome <;> rfl

theorem tunnelGave_destroy (t : Tunnel) : tunnelGave t.destroy = tunnelGave t := by
  unfold tunnelGave Tunnel.destroy
  cases t.relay with
  | none => rfl
  | some r =>
    simp only [Option.map_some, Option.getD_some]
    unfold Relay.destroy
    split <;> rfl

theorem tunnelSent_destroy (t : Tunnel) : tunnelSent t.destroy = tunnelSent t := by
  unfold tunnelSent Tunnel.destroy
  cases t.relay with
  | none => rfl
  | some r =>
    simp only [Option.map_some, Option.getD_some]
    unfold Relay.destroy
    split
    · rfl
    · simp [clientHeard, RelayEntry.toClientPart]

theorem Budgets.farewell {h : House σ} (hb : Budgets h) : Budgets h.farewell where
  sessions := by
    intro s hs
    obtain ⟨q, hq, rfl⟩ := List.mem_map.mp hs
    rw [sessionSent_destroy, sessionGave_destroy]
    exact hb.sessions q hq
  tunnels := by
    intro t ht hr
    obtain ⟨q, hq, rfl⟩ := List.mem_map.mp ht
    rw [tunnelSent_destroy, tunnelGave_destroy]
    exact hb.tunnels q hq (by simpa [Tunnel.destroy] using hr)
  calls := by
    intro c hc hr
    obtain ⟨q, hq, rfl⟩ := List.mem_map.mp hc
    show Within _ _ _ (tunnelSent q.line.destroy) (tunnelGave q.line.destroy)
    rw [tunnelSent_destroy, tunnelGave_destroy]
    exact hb.calls q hq (by simpa [Incoming.destroy, Tunnel.destroy] using hr)

theorem Budgets.over {h h' : House σ} (ho : House.Over h) (hb : Budgets h) {ev : HouseEvent} (hs : h.strictStep x ev = some h') :
    House.Over h' ∧ Budgets h' := by
  obtain ⟨g1, s1, r1⟩ := Option.bind_eq_some_iff.mp hs
  obtain ⟨a1, a2, a3, a4, a5, tail, a6, a7⟩ := ho.step s1
  rw [a6, List.drop_left, judgeAll_plain a7] at r1
  simp only [Verdict.events, House.run, Option.bind_some] at r1
  rw [a1.threw] at r1
  cases r1
  have more : ∀ {peer n sent gave : Nat}, Within h.server.auth.log peer n sent gave → Within h'.server.auth.log peer n sent gave := by
    rintro peer n sent gave ⟨⟨k, k1, k2⟩, ⟨j, j1, j2⟩⟩
    obtain ⟨k', e1, e2⟩ := k1.extend tail
    obtain ⟨j', f1, f2⟩ := j1.extend tail
    exact ⟨⟨k', by rw [a6]; exact e1, Nat.le_trans k2 e2⟩, ⟨j', by rw [a6]; exact f1, Nat.le_trans j2 f2⟩⟩
  refine ⟨a1, ?_, ?_, ?_⟩
  · rw [a2]; exact fun s hs => more (hb.sessions s hs)
  · rw [a3]; exact fun t ht hr => more (hb.tunnels t ht hr)
  · rw [a4]; exact fun c hc hr => more (hb.calls c hc hr)

theorem Budgets.full (hx : EnvOk x.host.server.trans) (evs : List HouseEvent) : ∀ {h h' : House σ},
    HoInv x h ∨ (House.Over h ∧ Budgets h) → h.fullRun x evs = some h' → Budgets h' := by
  induction evs with
  | nil =>
    intro h h' hi hr
    cases hr
    rcases hi with hi | hi
    · exact .of hx hi
    · exact hi.2
  | cons ev evs ih =>
    intro h h' hi hr
    obtain ⟨g, g1, g2⟩ := Option.bind_eq_some_iff.mp hr
    obtain ⟨g₀, k1, k2⟩ := Option.map_eq_some_iff.mp g1
    refine ih ?_ g2
    rcases hi with hi | hi
    · obtain ⟨g', e, i1⟩ := hi.strictStep hx ev
      rw [k1] at e
      cases e
      cases hv : g₀.server.live with
      | true => rw [hv] at k2; cases k2; exact .inl i1
      | false => rw [hv] at k2; cases k2; exact .inr ⟨farewell_over hx i1 hv, (Budgets.of hx i1).farewell⟩
    · obtain ⟨i1, l1⟩ := Budgets.over hi.1 hi.2 k1
      rw [i1.dead, cond_false, i1.farewell] at k2
      cases k2
      exact .inr ⟨i1, l1⟩

end Lukko
