import Verif.Proof.Allowance
import Verif.Prop.Ledger
/-
  C116: the client is never sent more than it has allowed.  C117: it is never allowed more than it has sent.
-/
namespace Lukko
open Spec Model

variable {σ : Type} {x : HouseEnv σ}

/-- Messages which occur no more often have no more data. -/
theorem sum_counts (f : Bytes → Nat) : ∀ {a b : List Bytes}, (∀ p, f p ≠ 0 → a.count p ≤ b.count p) → (a.map f).sum ≤ (b.map f).sum := by
  intro a
  induction a with
  | nil => intro b _; exact Nat.zero_le _
  | cons q a ih =>
    intro b h
    by_cases hq : f q = 0
    · have := ih (b := b) fun p hp => Nat.le_trans (List.count_le_count_cons) (h p hp)
      rw [List.map_cons, List.sum_cons, hq]
      omega
    · have hm : q ∈ b := by
        apply List.count_pos_iff.mp
        have := h q hq
        rw [List.count_cons_self] at this
        omega
      have h1 : (b.map f).sum = f q + ((b.erase q).map f).sum := by
        rw [← List.sum_cons, ← List.map_cons]
        exact ((List.perm_cons_erase hm).map f).sum_nat
      have h2 := ih (b := b.erase q) fun p hp => by
        have := h p hp
        rw [List.count_cons] at this
        rw [List.count_erase]
        split at this
        · rename_i e
          rw [beq_iff_eq] at e
          rw [if_pos (by rw [e]; exact beq_self_eq_true p)]
          omega
        · rename_i e
          rw [if_neg (by exact e)]
          exact this
      rw [List.map_cons, List.sum_cons, h1]
      omega

theorem dataIn_isData {n : Nat} {p : Bytes} (h : dataIn n p ≠ 0) : isData p = true := by
  cases p with
  | nil => exact (h rfl).elim
  | cons m p =>
    unfold dataIn at h
    unfold isData
    simp only [List.take_succ_cons, List.cons.injEq] at h
    split at h
    · rename_i e; rw [e.1]; rfl
    · split at h
      · rename_i e; rw [e.1]; rfl
      · exact (h rfl).elim

theorem session_total (n peer : Nat) (log : List SessEntry) :
    dataTotal n (log.filterMap (sessionData peer)) ≤ if u32 peer = u32 n then total IoEntry.sentBytes (sessIo log) else 0 := by
  induction log with
  | nil => exact Nat.zero_le _
  | cons e log ih =>
    have h1 : (e :: log).filterMap (sessionData peer) = (sessionData peer e).toList ++ log.filterMap (sessionData peer) := by
      rw [List.filterMap_cons]
      cases sessionData peer e <;> rfl
    have h2 : total IoEntry.sentBytes (sessIo (e :: log)) = total IoEntry.sentBytes (sessIo [e]) + total IoEntry.sentBytes (sessIo log) := by
      rw [← total_append, ← sessIo_append]
      rfl
    have h3 : dataTotal n (sessionData peer e).toList ≤ if u32 peer = u32 n then total IoEntry.sentBytes (sessIo [e]) else 0 := by
      cases e with
      | sent f bs =>
        cases f with
        | stderr => exact Nat.le_of_eq (dataIn_extended n peer bs)
        | _ => exact Nat.le_of_eq (dataIn_data n peer bs)
      | _ => exact Nat.zero_le _
    rw [h1, h2, dataTotal_append]
    split
    · rename_i e; rw [if_pos e] at ih h3; omega
    · rename_i e; rw [if_neg e] at ih h3; omega

theorem line_total (n : Nat) (t : Tunnel) : dataTotal n (Tunnel.dataSaid t) = if u32 t.peer = u32 n then tunnelSent t else 0 := by
  unfold Tunnel.dataSaid tunnelSent
  cases t.relay with
  | none => simp [dataTotal]
  | some r =>
    simp only [Option.map_some, Option.getD_some]
    induction r.log with
    | nil => simp [dataTotal, clientHeard]
    | cons e log ih =>
      have h1 : (e :: log).filterMap (socketData t.peer) = (socketData t.peer e).toList ++ log.filterMap (socketData t.peer) := by
        rw [List.filterMap_cons]
        cases socketData t.peer e <;> rfl
      have h2 : clientHeard (e :: log) = e.toClientPart ++ clientHeard log := rfl
      have h3 : dataTotal n (socketData t.peer e).toList = if u32 t.peer = u32 n then e.toClientPart.length else 0 := by
        cases e with
        | toClient bs => exact dataIn_data n t.peer bs
        | _ => simp [socketData, dataTotal, RelayEntry.toClientPart]
      rw [h1, h2, dataTotal_append, h3, ih, List.length_append]
      split <;> rfl

/-- The channels on which something can have been sent: the number of each at the client, and at the server. -/
def House.channels (h : House σ) : List (Nat × Nat) :=
  h.sessions.map (fun s => (s.peer, s.number)) ++
    ((h.tunnels.filter (·.relay.isSome)).map (fun t => (t.peer, t.number)) ++
      (h.board.calls.filter (·.line.relay.isSome)).map (fun c => (c.line.peer, c.line.number)))

/-- What is granted to those channels which have the number `n` at the client. -/
def granted (n : Nat) (l : List (Nat × Nat × Nat)) : Nat := ((l.filter fun q => u32 q.1 = u32 n).map fun q => q.2.2).sum

theorem granted_append (n : Nat) (a b : List (Nat × Nat × Nat)) : granted n (a ++ b) = granted n a + granted n b := by
  simp [granted]

/-- Something for each of these. -/
theorem each_within {α : Type} {P : Nat → Nat → Nat → Prop} {f : Bytes → Nat} {n : Nat} {who : α → Nat × Nat} {said : α → List Bytes} :
    ∀ {l : List α},
    (∀ a ∈ l, ∃ k, P (who a).1 (who a).2 k ∧ ((said a).map f).sum ≤ if u32 (who a).1 = u32 n then k else 0) →
    ∃ qs : List (Nat × Nat × Nat), qs.map (fun q => (q.1, q.2.1)) = l.map who ∧ (∀ q ∈ qs, P q.1 q.2.1 q.2.2) ∧
      ((l.flatMap said).map f).sum ≤ granted n qs := by
  intro l
  induction l with
  | nil => intro _; exact ⟨[], rfl, nofun, Nat.le_refl _⟩
  | cons a l ih =>
    intro h
    obtain ⟨k, k1, k2⟩ := h a List.mem_cons_self
    obtain ⟨qs, q1, q2, q3⟩ := ih fun b hb => h b (List.mem_cons_of_mem _ hb)
    refine ⟨((who a).1, (who a).2, k) :: qs, by rw [List.map_cons, List.map_cons, q1], ?_, ?_⟩
    · intro q hq
      rcases List.mem_cons.mp hq with rfl | hq
      · exact k1
      · exact q2 q hq
    · rw [List.flatMap_cons, List.map_append, List.sum_append,
        show ((who a).1, (who a).2, k) :: qs = [((who a).1, (who a).2, k)] ++ qs from rfl, granted_append]
      have : (if u32 (who a).1 = u32 n then k else 0) = granted n [((who a).1, (who a).2, k)] := by
        unfold granted
        split
        · rename_i e; simp [e]
        · rename_i e; simp [e]
      omega

theorem only_lines {α : Type} {said : Tunnel → List Bytes} (hs : ∀ t : Tunnel, t.relay = none → said t = []) (line : α → Tunnel) (l : List α) :
    l.flatMap (fun a => said (line a)) = (l.filter fun a => (line a).relay.isSome).flatMap fun a => said (line a) := by
  induction l with
  | nil => rfl
  | cons a l ih =>
    rw [List.flatMap_cons, ih]
    cases hr : (line a).relay with
    | none =>
      rw [List.filter_cons_of_neg (by rw [hr]; nofun), hs _ hr, List.nil_append]
    | some r => rw [List.filter_cons_of_pos (by rw [hr]; rfl), List.flatMap_cons]

theorem said_none {t : Tunnel} (h : t.relay = none) : Tunnel.dataSaid t = [] := by simp [Tunnel.dataSaid, h]
theorem gave_none {t : Tunnel} (h : t.relay = none) : Tunnel.gaveBack t = [] := by simp [Tunnel.gaveBack, h]

/-- **C116.** All data which is sent to the client under the number of a channel is within what it has granted to its channels of this number:
each such channel was opened or confirmed by the client, and the bytes sent are no more than what it allowed then and has allowed since
(apart from what the server to which the connection is passed on as a whole, or an agent channel, sends under this number). -/
theorem C116_allowed (hx : EnvOk x.host.server.trans) {evs : List HouseEvent} {h : House σ}
    (hr : ({} : House σ).fullRun x evs = some h) (n : Nat) :
    ∃ qs : List (Nat × Nat × Nat), qs.map (fun q => (q.1, q.2.1)) = House.channels h ∧
      (∀ q ∈ qs, Grant h.server.auth.log q.1 q.2.1 q.2.2) ∧
      dataTotal n (packetsSent h.server.trans.posts) ≤
        granted n qs + dataTotal n (h.server.auth.log.filterMap targetData) + dataTotal n (evs.flatMap HouseEvent.foreign) := by
  have hb := Budgets.full hx evs (.inl HoInv.init) hr
  have h0 : dataTotal n (packetsSent h.server.trans.posts) ≤
      dataTotal n (h.server.auth.log.filterMap targetData ++ House.dataSaid h ++ evs.flatMap HouseEvent.foreign) := by
    refine sum_counts (dataIn n) fun p hp => ?_
    rw [List.count_append, List.count_append]
    exact C115_nothing_invented hx hr (dataIn_isData hp)
  obtain ⟨q1, a1, b1, c1⟩ := each_within (P := Grant h.server.auth.log) (f := dataIn n) (n := n) (who := fun s : Session => (s.peer, s.number))
    (said := fun s => s.ch.s.log.filterMap (sessionData s.peer)) (l := h.sessions) fun s hs => by
      obtain ⟨⟨k, k1, k2⟩, _⟩ := hb.sessions s hs
      refine ⟨k, k1, Nat.le_trans (session_total n s.peer s.ch.s.log) ?_⟩
      show (if u32 s.peer = u32 n then sessionSent s else 0) ≤ _
      split <;> omega
  obtain ⟨q2, a2, b2, c2⟩ := each_within (P := Grant h.server.auth.log) (f := dataIn n) (n := n) (who := fun t : Tunnel => (t.peer, t.number))
    (said := Tunnel.dataSaid) (l := h.tunnels.filter (·.relay.isSome)) fun t ht => by
      obtain ⟨⟨k, k1, k2⟩, _⟩ := hb.tunnels t (List.mem_filter.mp ht).1 (List.mem_filter.mp ht).2
      refine ⟨k, k1, ?_⟩
      refine Nat.le_trans (Nat.le_of_eq (line_total n _)) ?_
      show (if u32 t.peer = u32 n then tunnelSent t else 0) ≤ if u32 t.peer = u32 n then k else 0
      split <;> omega
  obtain ⟨q3, a3, b3, c3⟩ := each_within (P := Grant h.server.auth.log) (f := dataIn n) (n := n) (who := fun c : Incoming => (c.line.peer, c.line.number))
    (said := fun c => Tunnel.dataSaid c.line) (l := h.board.calls.filter (·.line.relay.isSome)) fun c hc => by
      obtain ⟨⟨k, k1, k2⟩, _⟩ := hb.calls c (List.mem_filter.mp hc).1 (List.mem_filter.mp hc).2
      refine ⟨k, k1, ?_⟩
      refine Nat.le_trans (Nat.le_of_eq (line_total n _)) ?_
      show (if u32 c.line.peer = u32 n then tunnelSent c.line else 0) ≤ if u32 c.line.peer = u32 n then k else 0
      split <;> omega
  refine ⟨q1 ++ (q2 ++ q3), by rw [List.map_append, List.map_append, a1, a2, a3]; rfl, ?_, ?_⟩
  · intro q hq
    rcases List.mem_append.mp hq with hq | hq
    · exact b1 q hq
    · rcases List.mem_append.mp hq with hq | hq
      · exact b2 q hq
      · exact b3 q hq
  · have h3 : dataTotal n (House.dataSaid h) ≤ granted n (q1 ++ (q2 ++ q3)) := by
      unfold House.dataSaid
      rw [show h.tunnels.flatMap Tunnel.dataSaid = (h.tunnels.filter (·.relay.isSome)).flatMap Tunnel.dataSaid from only_lines (fun _ => said_none) id h.tunnels,
        only_lines (fun _ => said_none) Incoming.line h.board.calls, granted_append, granted_append, dataTotal_append, dataTotal_append]
      have d1 : dataTotal n (h.sessions.flatMap fun s => s.ch.s.log.filterMap (sessionData s.peer)) ≤ granted n q1 := c1
      have d2 : dataTotal n ((h.tunnels.filter (·.relay.isSome)).flatMap Tunnel.dataSaid) ≤ granted n q2 := c2
      have d3 : dataTotal n ((h.board.calls.filter (·.line.relay.isSome)).flatMap fun c => Tunnel.dataSaid c.line) ≤ granted n q3 := c3
      omega
    rw [dataTotal_append, dataTotal_append] at h0
    omega

/-- **C116.** In particular: if one channel only ever had this number, the client is not sent more data under this number than it has granted to
this channel. -/
theorem C116_one_channel (hx : EnvOk x.host.server.trans) {evs : List HouseEvent} {h : House σ}
    (hr : ({} : House σ).fullRun x evs = some h) {peer n : Nat}
    (h1 : (House.channels h).filter (fun q => u32 q.1 = u32 peer) = [(peer, n)])
    (h2 : h.server.auth.log.filterMap targetData = []) (h3 : evs.flatMap HouseEvent.foreign = []) :
    ∃ k, Grant h.server.auth.log peer n k ∧ dataTotal peer (packetsSent h.server.trans.posts) ≤ k := by
  obtain ⟨qs, q1, q2, q3⟩ := C116_allowed hx hr peer
  rw [← q1, List.filter_map] at h1
  rw [h2, h3] at q3
  obtain ⟨q, r1, r2⟩ := List.map_eq_singleton_iff.mp h1
  have r3 : qs.filter (fun q => decide (u32 q.1 = u32 peer)) = [q] := r1
  have r4 : q ∈ qs := (List.mem_filter.mp (r3 ▸ List.mem_singleton_self q : q ∈ qs.filter _)).1
  unfold granted at q3
  rw [r3] at q3
  refine ⟨q.2.2, ?_, by simpa [dataTotal] using q3⟩
  have := q2 q r4
  cases r2
  exact this

theorem allowedBy_line (n peer k : Nat) : allowedBy n (93 :: windowAdjustBody peer k) ≤ if u32 peer = u32 n then k else 0 := by
  have h1 : (93 :: windowAdjustBody peer k).take 5 = 93 :: u32 peer := rfl
  have h2 : (93 :: windowAdjustBody peer k).drop 5 = u32 k := rfl
  unfold allowedBy
  rw [h1, h2]
  by_cases h : u32 peer = u32 n
  · rw [if_pos ⟨by rw [h], rfl⟩, if_pos h]
    simp only [bigEndian, u32, List.foldl_cons, List.foldl_nil, UInt8.toNat_ofNat']
    omega
  · rw [if_neg (by simp [h])]
    exact Nat.zero_le _

theorem allowedBy_isAdjust {n : Nat} {p : Bytes} (h : allowedBy n p ≠ 0) : isAdjust p = true := by
  cases p with
  | nil => exact (h rfl).elim
  | cons m p =>
    unfold allowedBy at h
    unfold isAdjust
    simp only [List.take_succ_cons, List.cons.injEq] at h
    split at h
    · rename_i e; rw [e.1.1]; rfl
    · exact (h rfl).elim

theorem session_gave_total (n peer : Nat) (log : List SessEntry) :
    allowed n (log.filterMap (sessionGives peer)) ≤ if u32 peer = u32 n then total IoEntry.weGranted (sessIo log) else 0 := by
  induction log with
  | nil => exact Nat.zero_le _
  | cons e log ih =>
    have h1 : (e :: log).filterMap (sessionGives peer) = (sessionGives peer e).toList ++ log.filterMap (sessionGives peer) := by
      rw [List.filterMap_cons]
      cases sessionGives peer e <;> rfl
    have h2 : total IoEntry.weGranted (sessIo (e :: log)) = total IoEntry.weGranted (sessIo [e]) + total IoEntry.weGranted (sessIo log) := by
      rw [← total_append, ← sessIo_append]
      rfl
    have h3 : allowed n (sessionGives peer e).toList ≤ if u32 peer = u32 n then total IoEntry.weGranted (sessIo [e]) else 0 := by
      unfold sessionGives
      split
      · rename_i k; exact allowedBy_line n peer k
      · exact Nat.zero_le _
    rw [h1, h2, allowed_append]
    split
    · rename_i e; rw [if_pos e] at ih h3; omega
    · rename_i e; rw [if_neg e] at ih h3; omega

theorem line_gave_total (n : Nat) (t : Tunnel) : allowed n (Tunnel.gaveBack t) ≤ if u32 t.peer = u32 n then tunnelGave t else 0 := by
  unfold Tunnel.gaveBack tunnelGave
  cases t.relay with
  | none => exact Nat.zero_le _
  | some r =>
    simp only [Option.map_some, Option.getD_some]
    induction r.ch.sock.log with
    | nil => exact Nat.zero_le _
    | cons e log ih =>
      have h1 : (e :: log).filterMap (socketGives t.peer) = (socketGives t.peer e).toList ++ log.filterMap (socketGives t.peer) := by
        rw [List.filterMap_cons]
        cases socketGives t.peer e <;> rfl
      have h2 : total IoEntry.weGranted (e :: log) = e.weGranted + total IoEntry.weGranted log := rfl
      have h3 : allowed n (socketGives t.peer e).toList ≤ if u32 t.peer = u32 n then e.weGranted else 0 := by
        unfold socketGives
        split
        · rename_i k; exact allowedBy_line n t.peer k
        · exact Nat.zero_le _
      rw [h1, h2, allowed_append]
      split
      · rename_i e; rw [if_pos e] at ih h3; omega
      · rename_i e; rw [if_neg e] at ih h3; omega

/-- The adjustments of all channels, each with the number which the client has given the channel. -/
def House.gaveBack (h : House σ) : List Bytes :=
  h.sessions.flatMap (fun s => s.ch.s.log.filterMap (sessionGives s.peer)) ++
    (h.tunnels.flatMap Tunnel.gaveBack ++ h.board.calls.flatMap fun c => Tunnel.gaveBack c.line)

theorem house_gave {F : List Bytes} {h : House σ} (hl : LInv F h) : (houseSays h).filter isAdjust = (House.gaveBack h).filter fits := by
  unfold houseSays House.gaveBack
  simp only [List.filter_append]
  rw [flatMap_filters (f := sessionSays) fun s _ => filterMap_data (session_gives s.peer) _,
    flatMap_filters (f := Tunnel.out) fun t ht => (hl.tunnels t ht).gave,
    flatMap_filters (f := callSays) (g := fun c => Tunnel.gaveBack c.line) fun c hc => (hl.calls c hc).gave]

/-- **C117.** The server allows the client to send only what replaces bytes which it has sent: all window adjustments which are sent under
the number of a channel amount to no more than the data which has come from the client on its channels of this number since each was opened
(apart from adjustments which come from the server to which the connection is passed on as a whole, or from an agent channel). -/
theorem C117_returned (hx : EnvOk x.host.server.trans) {evs : List HouseEvent} {h : House σ}
    (hr : ({} : House σ).fullRun x evs = some h) (n : Nat) :
    ∃ qs : List (Nat × Nat × Nat), qs.map (fun q => (q.1, q.2.1)) = House.channels h ∧
      (∀ q ∈ qs, Given h.server.auth.log q.1 q.2.1 q.2.2) ∧
      allowed n (packetsSent h.server.trans.posts) ≤
        granted n qs + allowed n (h.server.auth.log.filterMap targetData) + allowed n (evs.flatMap HouseEvent.foreign) := by
  have hb := Budgets.full hx evs (.inl HoInv.init) hr
  have hl := LInv.full hx evs (.inl HoInv.init) LInv.init hr
  have h0 : allowed n (packetsSent h.server.trans.posts) ≤
      allowed n (h.server.auth.log.filterMap targetData ++ House.gaveBack h ++ evs.flatMap HouseEvent.foreign) := by
    refine sum_counts (allowedBy n) fun p hp => ?_
    have ha := allowedBy_isAdjust hp
    rw [List.count_append, List.count_append]
    have h1 := hl.most p (isAdjust_flow ha)
    have h2 := (count_filters ha (house_gave hl)).1
    rw [target_count (isAdjust_flow ha), List.nil_append] at h1
    omega
  obtain ⟨q1, a1, b1, c1⟩ := each_within (P := Given h.server.auth.log) (f := allowedBy n) (n := n)
    (who := fun s : Session => (s.peer, s.number))
    (said := fun s => s.ch.s.log.filterMap (sessionGives s.peer)) (l := h.sessions) fun s hs => by
      obtain ⟨_, k, k1, k2⟩ := hb.sessions s hs
      refine ⟨k, k1, Nat.le_trans (session_gave_total n s.peer s.ch.s.log) ?_⟩
      show (if u32 s.peer = u32 n then sessionGave s else 0) ≤ if u32 s.peer = u32 n then k else 0
      split <;> omega
  obtain ⟨q2, a2, b2, c2⟩ := each_within (P := Given h.server.auth.log) (f := allowedBy n) (n := n)
    (who := fun t : Tunnel => (t.peer, t.number))
    (said := Tunnel.gaveBack) (l := h.tunnels.filter (·.relay.isSome)) fun t ht => by
      obtain ⟨_, k, k1, k2⟩ := hb.tunnels t (List.mem_filter.mp ht).1 (List.mem_filter.mp ht).2
      refine ⟨k, k1, Nat.le_trans (line_gave_total n t) ?_⟩
      show (if u32 t.peer = u32 n then tunnelGave t else 0) ≤ if u32 t.peer = u32 n then k else 0
      split <;> omega
  obtain ⟨q3, a3, b3, c3⟩ := each_within (P := Given h.server.auth.log) (f := allowedBy n) (n := n)
    (who := fun c : Incoming => (c.line.peer, c.line.number))
    (said := fun c => Tunnel.gaveBack c.line) (l := h.board.calls.filter (·.line.relay.isSome)) fun c hc => by
      obtain ⟨_, k, k1, k2⟩ := hb.calls c (List.mem_filter.mp hc).1 (List.mem_filter.mp hc).2
      refine ⟨k, k1, Nat.le_trans (line_gave_total n c.line) ?_⟩
      show (if u32 c.line.peer = u32 n then tunnelGave c.line else 0) ≤ if u32 c.line.peer = u32 n then k else 0
      split <;> omega
  refine ⟨q1 ++ (q2 ++ q3), by rw [List.map_append, List.map_append, a1, a2, a3]; rfl, ?_, ?_⟩
  · intro q hq
    rcases List.mem_append.mp hq with hq | hq
    · exact b1 q hq
    · rcases List.mem_append.mp hq with hq | hq
      · exact b2 q hq
      · exact b3 q hq
  · have h3 : allowed n (House.gaveBack h) ≤ granted n (q1 ++ (q2 ++ q3)) := by
      unfold House.gaveBack
      rw [show h.tunnels.flatMap Tunnel.gaveBack = (h.tunnels.filter (·.relay.isSome)).flatMap Tunnel.gaveBack from
          only_lines (fun _ => gave_none) id h.tunnels,
        only_lines (fun _ => gave_none) Incoming.line h.board.calls, granted_append, granted_append, allowed_append, allowed_append]
      have d1 : allowed n (h.sessions.flatMap fun s => s.ch.s.log.filterMap (sessionGives s.peer)) ≤ granted n q1 := c1
      have d2 : allowed n ((h.tunnels.filter (·.relay.isSome)).flatMap Tunnel.gaveBack) ≤ granted n q2 := c2
      have d3 : allowed n ((h.board.calls.filter (·.line.relay.isSome)).flatMap fun c => Tunnel.gaveBack c.line) ≤ granted n q3 := c3
      omega
    rw [allowed_append, allowed_append] at h0
    omega

/-- **C117.** In particular: if one channel only ever had this number, the client is never allowed more on it than it has sent on it, beyond
the window with which it was opened. -/
theorem C117_one_channel (hx : EnvOk x.host.server.trans) {evs : List HouseEvent} {h : House σ}
    (hr : ({} : House σ).fullRun x evs = some h) {peer n : Nat}
    (h1 : (House.channels h).filter (fun q => u32 q.1 = u32 peer) = [(peer, n)])
    (h2 : h.server.auth.log.filterMap targetData = []) (h3 : evs.flatMap HouseEvent.foreign = []) :
    ∃ k, Given h.server.auth.log peer n k ∧ allowed peer (packetsSent h.server.trans.posts) ≤ k := by
  obtain ⟨qs, q1, q2, q3⟩ := C117_returned hx hr peer
  rw [← q1, List.filter_map] at h1
  rw [h2, h3] at q3
  obtain ⟨q, r1, r2⟩ := List.map_eq_singleton_iff.mp h1
  have r3 : qs.filter (fun q => decide (u32 q.1 = u32 peer)) = [q] := r1
  have r4 : q ∈ qs := (List.mem_filter.mp (r3 ▸ List.mem_singleton_self q : q ∈ qs.filter _)).1
  unfold granted at q3
  rw [r3] at q3
  refine ⟨q.2.2, ?_, by simpa [allowed] using q3⟩
  have := q2 q r4
  cases r2
  exact this

/-- As in the example for C112; then the client allows 40 bytes more on the connection which somebody has made to a listener. -/
def demoPurse : HouseEnv (Nat × List Bytes) where
  host := { demoInn with server := { trans := demoLink demoEndS 0 (demoFair ++ [93 :: windowAdjustBody 2 40]), auth := demoAuth } }
  ndebug := false

theorem demoPurse_ok : EnvOk demoPurse.host.server.trans := demoLink_ok (demoEnd_digest _ _) 0 _

/-- More arrives from there than was allowed before… -/
def demoFlood : List HouseEvent :=
  [.desk (.relay 0 (.hostSends (List.replicate 1100 7))), .desk (.relay 0 (.ready none true 0 false))]

/-- … and this is when more is allowed. -/
def demoLeave : List HouseEvent :=
  demoEnter { number := 3 } (93 :: windowAdjustBody 2 40) ++ [.desk (.relay 0 (.ready none true 0 false))]

/-- Non-vacuity (C116): the client, which has allowed 1000 bytes, is sent 1000 bytes, although more have arrived… -/
example : EnvOk demoPurse.host.server.trans ∧ (demoParty ++ demoFlood).flatMap HouseEvent.foreign = [] ∧
    (({} : House (Nat × List Bytes)).fullRun demoPurse (demoParty ++ demoFlood)).map (fun h =>
      (h.server.live && decide (h.server.auth.log.filterMap targetData = []), House.channels h, dataTotal 6 (packetsSent h.server.trans.posts))) =
      some (true, [(0, 0), (5, 1), (6, 2)], 1000) :=
  ⟨demoPurse_ok, by decide +kernel, by decide +kernel⟩

/-- … and 40 more when these are allowed. -/
example :
    (({} : House (Nat × List Bytes)).fullRun demoPurse (demoParty ++ demoFlood ++ demoLeave)).map (fun h =>
      (h.server.live && decide (h.server.auth.log.filterMap targetData = []), allowed 2 (clientMessages h.server.auth.log),
        dataTotal 6 (packetsSent h.server.trans.posts))) =
      some (true, 40, 1040) := by
  decide +kernel

/-- Non-vacuity (C117): a connection with three channels, on each of which the client has sent two bytes; this is too little for an
adjustment (the server sends one when half of the window, 524288 bytes, is used)… -/
example : EnvOk demoPurse.host.server.trans ∧ demoParty.flatMap HouseEvent.foreign = [] ∧
    (({} : House (Nat × List Bytes)).fullRun demoPurse demoParty).map (fun h =>
      (h.server.live && decide (h.server.auth.log.filterMap targetData = []), House.channels h,
        [0, 1, 2].map (fun n => dataTotal n (clientMessages h.server.auth.log)),
        [0, 5, 6].map fun n => allowed n (packetsSent h.server.trans.posts))) =
      some (true, [(0, 0), (5, 1), (6, 2)], [2, 2, 2], [0, 0, 0]) :=
  ⟨demoPurse_ok, by decide +kernel, by decide +kernel⟩

/-- … and a channel by itself, at the point where an adjustment is due: exactly what was used is given back. -/
example : (Sock.consume { sendWin := 0, recvWin := 524290 } 10).map (fun s => (s.recvWin, s.log)) =
    some (1048576, [.tx (.adjust 524296)]) ∧ allowed 6 [93 :: windowAdjustBody 6 524296] = 524296 := by
  decide +kernel

end Lukko
