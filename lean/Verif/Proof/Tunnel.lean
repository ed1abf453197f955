import Verif.Model.Tunnel
import Verif.Proof.AllowanceRelay
import Verif.Proof.HostInv
/-
  Invariant of the forwarded connections of a connection of the server.
-/
namespace Lukko
open Spec Model

variable {σ : Type} {nd : Bool}

/-! ### What a message means -/

theorem passed_iff (c : Chance) {n : Nat} (hn : n < 2 ^ 32) (m : UInt8) (p : Bytes) (e : RelayEntry) :
    Passed n (m :: p) e ↔ ∃ ev, tunnelEvent c m p = some (n, ev) ∧ ev.mark = some e := by
  constructor
  · intro h
    cases h with
    | data hb =>
      rename_i bs
      refine ⟨.clientData bs c.wrote, ?_, rfl⟩
      unfold tunnelEvent
      rw [if_neg (by decide), if_pos rfl, (C05_channel_data n bs hn hb).2.parse]
      rfl
    | eof =>
      refine ⟨.clientEof, ?_, rfl⟩
      unfold tunnelEvent
      rw [if_neg (by decide), if_neg (by decide), if_neg (by decide), if_pos rfl, (C05_channel_eof n hn).2.parse]
      rfl
  · rintro ⟨ev, h, hm⟩
    unfold tunnelEvent at h
    split at h
    · obtain ⟨q, hq, h⟩ := Option.map_eq_some_iff.mp h
      simp only [Prod.mk.injEq] at h
      obtain ⟨rfl, rfl⟩ := h
      cases hm
    split at h
    · rename_i h0
      obtain ⟨q, hq, h⟩ := Option.map_eq_some_iff.mp h
      simp only [Prod.mk.injEq] at h
      obtain ⟨rfl, rfl⟩ := h
      cases hm
      obtain ⟨rfl, g⟩ := parseData_inv hq
      rw [h0]
      exact .data g
    split at h
    · obtain ⟨q, hq, h⟩ := Option.map_eq_some_iff.mp h
      simp only [Prod.mk.injEq] at h
      obtain ⟨rfl, rfl⟩ := h
      cases hm
    split at h
    · rename_i h0
      obtain ⟨q, hq, h⟩ := Option.map_eq_some_iff.mp h
      simp only [Prod.mk.injEq] at h
      obtain ⟨rfl, rfl⟩ := h
      cases hm
      have := parseEof_inv hq
      subst this
      rw [h0]
      exact .eof
    split at h
    · obtain ⟨q, hq, h⟩ := Option.map_eq_some_iff.mp h
      simp only [Prod.mk.injEq] at h
      obtain ⟨rfl, rfl⟩ := h
      cases hm
    · cases h

theorem unpassed_msg {n : Nat} {m : UInt8} {p : Bytes} (h : heardMsg m = false) : ∀ e, ¬ Passed n (m :: p) e := by
  intro e he
  cases he <;> cases h

/-! ### One forwarded connection -/

/-- CHANNEL_OPEN_CONFIRMATION. -/
def confirmation (t : Tunnel) : Bytes := 91 :: channelOpenConfirmationBody t.peer t.number RECEIVE_WINDOW 32768 []

theorem serialized_confirmation (t : Tunnel) :
    serialized (makeChannelOpenConfirmation t.peer t.number RECEIVE_WINDOW 32768) = some (confirmation t) := by
  have hb : Builds (makeChannelOpenConfirmation t.peer t.number RECEIVE_WINDOW 32768) MSG_CHANNEL_OPEN_CONFIRMATION
      (channelOpenConfirmationBody t.peer t.number RECEIVE_WINDOW 32768 []) .terminate := by
    have := Writes.noexcept_begin ((Writes.u32 t.peer).bind ((Writes.u32 t.number).bind
      ((Writes.u32 RECEIVE_WINDOW).bind (Writes.u32 32768)))) MSG_CHANNEL_OPEN_CONFIRMATION
    simpa [Builds, channelOpenConfirmationBody, makeChannelOpenConfirmation] using this
  rw [serialized_builds hb, if_pos (by simp [channelOpenConfirmationBody])]
  rfl

/-- The connection to the host is established; `post` is what has happened since then. -/
structure TLive (nd : Bool) (head : Bytes) (t : Tunnel) (r : Relay) (post : List AuthEntry) : Prop where
  isRun : ∃ evs, r = Relay.run nd (Relay.init t.window) evs
  shut : t.isOpen = false → r.ch.stop ≠ none
  said : 0 < t.window → ∃ ms, ms <+: clientMessages post ∧ Forwarded t.number ms (r.log.filter RelayEntry.byClient) ∧
    (r.ch.stop = none → ms = clientMessages post)
  out : (head :: r.log.filterMap (relayMessage t.peer)).Sublist t.out
  paid : total IoEntry.granted r.ch.sock.log ≤ allowed t.number (clientMessages post)
  got : total IoEntry.gotBytes r.ch.sock.log ≤ dataTotal t.number (clientMessages post)

/-- The channel was opened when the record was `pre`; `post` is what happened on the connection afterwards. -/
structure TOkAt (nd : Bool) (log : List AuthEntry) (t : Tunnel) (pre post : List AuthEntry) : Prop where
  opened : ∃ type m rest, Asks type rest t.target ∧
    log = pre ++ [.received 90 (channelOpenBody type t.peer t.window m rest), t.target] ++ post
  number : t.number < 64
  live : ∀ r, t.relay = some r → ∃ a b, post = a ++ b ∧ TLive nd (confirmation t) t r b

def TOk (nd : Bool) (log : List AuthEntry) (t : Tunnel) : Prop := ∃ pre post, TOkAt nd log t pre post

theorem TOkAt.extend {log t pre post} (h : TOkAt nd log t pre post) (es : List AuthEntry) {t' : Tunnel}
    (h1 : t'.number = t.number) (h2 : t'.peer = t.peer) (h3 : t'.window = t.window) (h4 : t'.target = t.target)
    (hl : ∀ r, t'.relay = some r → ∃ a b, post ++ es = a ++ b ∧ TLive nd (confirmation t') t' r b) : TOkAt nd (log ++ es) t' pre (post ++ es) := by
  obtain ⟨ty, m, rest, o1, o2⟩ := h.opened
  refine ⟨⟨ty, m, rest, by rw [h4]; exact o1, by rw [o2, h2, h3, h4]; simp⟩, by rw [h1]; exact h.number, hl⟩

theorem TLive.extend {head t r post} (h : TLive nd head t r post) (es : List AuthEntry)
    (hm : 0 < t.window → r.ch.stop = none → ∀ {cs}, Forwarded t.number (clientMessages post) cs →
      Forwarded t.number (clientMessages (post ++ es)) cs) : TLive nd head t r (post ++ es) := by
  refine ⟨h.isRun, h.shut, fun hw => ?_, h.out, Nat.le_trans h.paid (by rw [clientMessages_append]; exact allowed_prefix (List.prefix_append _ _)),
    Nat.le_trans h.got (by rw [clientMessages_append, dataTotal_append]; exact Nat.le_add_right _ _)⟩
  obtain ⟨ms, m1, m2, m3⟩ := h.said hw
  by_cases hs : r.ch.stop = none
  · have he := m3 hs
    rw [he] at m2
    exact ⟨_, List.prefix_rfl, hm hw hs m2, fun _ => rfl⟩
  · refine ⟨ms, ?_, m2, fun hc => absurd hc hs⟩
    rw [clientMessages_append]
    exact m1.trans (List.prefix_append _ _)

/-- Something happens on the connection which does not concern it. -/
theorem TOk.plain {log t es} (h : TOk nd log t) (hp : clientMessages es = []) : TOk nd (log ++ es) t := by
  obtain ⟨pre, post, h⟩ := h
  refine ⟨pre, _, h.extend es rfl rfl rfl rfl fun r hr => ?_⟩
  obtain ⟨a, b, rfl, hl⟩ := h.live r hr
  refine ⟨a, b ++ es, by simp, hl.extend es fun _ _ _ hc => ?_⟩
  rw [clientMessages_append, hp, List.append_nil]; exact hc

/-- A message for somebody else. -/
theorem TOk.unpassed {log t m p} (h : TOk nd log t) (hn : ∀ e, ¬ Passed t.number (m :: p) e) :
    TOk nd (log ++ [.received m p]) t := by
  obtain ⟨pre, post, h⟩ := h
  refine ⟨pre, _, h.extend _ rfl rfl rfl rfl fun r hr => ?_⟩
  obtain ⟨a, b, rfl, hl⟩ := h.live r hr
  refine ⟨a, b ++ [.received m p], by simp, hl.extend _ fun _ _ _ hc => ?_⟩
  rw [clientMessages_append]
  exact .other hc hn

theorem TLive.over {head t r post} (h : TLive nd head t r post) (es : List AuthEntry) (hs : r.ch.stop ≠ none) :
    TLive nd head t r (post ++ es) :=
  h.extend es fun _ hc => absurd hc hs

/-- An event: what has to be shown about it. -/
theorem TLive.event {head t r post} (h : TLive nd head t r post) (es : List AuthEntry) (ev : RelayEvent)
    (hsaid : ∀ {cs}, Forwarded t.number (clientMessages post) cs →
      Forwarded t.number (clientMessages (post ++ es)) (cs ++ ev.mark.toList))
    (hpaid : ev.weight IoEntry.granted ≤ allowed t.number (clientMessages es) ∧
      ev.weight IoEntry.gotBytes ≤ dataTotal t.number (clientMessages es)) :
    TLive nd head { t with relay := some (r.step nd ev), isOpen := t.isOpen && !(ev == .clientClose),
                           out := t.out ++ relayMessages t.peer r (r.step nd ev) } (r.step nd ev) (post ++ es) := by
  obtain ⟨evs, he⟩ := h.isRun
  refine ⟨⟨evs ++ [ev], by rw [Relay.run_snoc, he]⟩, fun ho => ?_, fun hw => ?_, ?_, ?_, ?_⟩
  · by_cases hs : r.ch.stop = none
    · cases hi : t.isOpen with
      | false => exact absurd hs (h.shut hi)
      | true =>
        have hg : ev = .clientClose := by simpa [hi] using ho
        rw [relay_ch nd hs, hg]
        simp [Relay.act, SockCh.close]
    · have : r.step nd ev = r := by
        unfold Relay.step
        split
        · rfl
        · rename_i h0; exact absurd h0 hs
      rw [this]; exact hs
  · obtain ⟨ms, m1, m2, m3⟩ := h.said hw
    by_cases hs : r.ch.stop = none
    · have hms := m3 hs
      subst hms
      rw [he] at hs m2 ⊢
      rcases relay_marked nd hw evs hs ev with hm | ⟨e1, e2⟩
      · exact ⟨_, List.prefix_rfl, by rw [hm]; exact hsaid m2, fun _ => rfl⟩
      · refine ⟨clientMessages post, ?_, by rw [e1]; exact m2, fun hc => absurd hc e2⟩
        rw [clientMessages_append]; exact List.prefix_append _ _
    · have : r.step nd ev = r := by
        unfold Relay.step
        split
        · rfl
        · rename_i h0; exact absurd h0 hs
      rw [this]
      refine ⟨ms, ?_, m2, fun hc => absurd hc hs⟩
      rw [clientMessages_append]
      exact m1.trans (List.prefix_append _ _)
  · obtain ⟨l, hl⟩ := relay_grows nd r ev
    simp only [relayMessages]
    rw [← hl, List.drop_left, List.filterMap_append, ← List.cons_append]
    exact h.out.append (List.sublist_append_right _ _)
  · rw [clientMessages_append, allowed_append]
    exact Nat.le_trans (relay_widened granted_inward nd r ev).2 (Nat.add_le_add h.paid hpaid.1)
  · rw [clientMessages_append, dataTotal_append]
    exact Nat.le_trans (relay_widened got_inward nd r ev).2 (Nat.add_le_add h.got hpaid.2)

/-- A message for this channel, or something happens on the server. -/
theorem TOk.event {log t} (h : TOk nd log t) (es : List AuthEntry) (ev : RelayEvent)
    (hsaid : ∀ {ms cs}, Forwarded t.number ms cs → Forwarded t.number (ms ++ clientMessages es) (cs ++ ev.mark.toList))
    (hpaid : ev.weight IoEntry.granted ≤ allowed t.number (clientMessages es) ∧
      ev.weight IoEntry.gotBytes ≤ dataTotal t.number (clientMessages es)) :
    TOk nd (log ++ es) (t.handle nd ev) := by
  obtain ⟨pre, post, h⟩ := h
  unfold Tunnel.handle
  split
  · rename_i hr
    exact ⟨pre, _, h.extend es rfl rfl rfl rfl fun r hr' => by rw [hr] at hr'; cases hr'⟩
  · rename_i r hr
    refine ⟨pre, _, h.extend es rfl rfl rfl rfl fun r' hr' => ?_⟩
    cases hr'
    obtain ⟨a, b, rfl, hl⟩ := h.live r hr
    exact ⟨a, b ++ es, by simp, hl.event es ev (fun hc => by rw [clientMessages_append]; exact hsaid hc) hpaid⟩

theorem TOk.local {log t} (h : TOk nd log t) {ev : RelayEvent} (hl : ev.isLocal = true) : TOk nd log (t.handle nd ev) := by
  have hm : ev.mark = none := by cases ev <;> first | rfl | cases hl
  have hg : ∀ f, ev.weight f = 0 := fun f => by cases ev <;> first | rfl | cases hl
  have := h.event [] ev (fun {ms cs} hc => by rw [hm]; simpa [clientMessages] using hc) (by rw [hg, hg]; exact ⟨Nat.zero_le _, Nat.zero_le _⟩)
  simpa using this

/-- The client's message allows what the event says, and has its data. -/
theorem tunnelEvent_weight {c : Chance} {m : UInt8} {p : Bytes} {n : Nat} {ev : RelayEvent} (h : tunnelEvent c m p = some (n, ev)) :
    ev.weight IoEntry.granted ≤ allowed n [m :: p] ∧ ev.weight IoEntry.gotBytes ≤ dataTotal n [m :: p] := by
  unfold tunnelEvent at h
  split at h
  · rename_i h0
    obtain ⟨q, hq, h⟩ := Option.map_eq_some_iff.mp h
    simp only [Prod.mk.injEq] at h
    obtain ⟨rfl, rfl⟩ := h
    obtain ⟨rfl, g⟩ := parseAdjust_inv hq
    subst h0
    refine ⟨?_, Nat.zero_le _⟩
    show q.nbytes ≤ allowedBy q.localChannel (93 :: windowAdjustBody q.localChannel q.nbytes) + 0
    rw [allowedBy_adjust g]
    exact Nat.le_refl _
  · split at h
    · rename_i h0
      obtain ⟨q, hq, h⟩ := Option.map_eq_some_iff.mp h
      simp only [Prod.mk.injEq] at h
      obtain ⟨rfl, rfl⟩ := h
      obtain ⟨rfl, g⟩ := parseData_inv hq
      subst h0
      refine ⟨Nat.zero_le _, ?_⟩
      show q.data.length ≤ dataIn q.localChannel (94 :: channelDataBody q.localChannel q.data) + 0
      rw [dataIn_data, if_pos rfl]
      exact Nat.le_refl _
    · split at h
      · rename_i h0
        obtain ⟨q, hq, h⟩ := Option.map_eq_some_iff.mp h
        simp only [Prod.mk.injEq] at h
        obtain ⟨rfl, rfl⟩ := h
        obtain ⟨rfl, g⟩ := parseExt_inv hq
        subst h0
        refine ⟨Nat.zero_le _, ?_⟩
        show q.data.length ≤ dataIn q.localChannel (95 :: channelExtendedDataBody q.localChannel q.type q.data) + 0
        rw [dataIn_extended, if_pos rfl]
        exact Nat.le_refl _
      · have : ev.weight IoEntry.granted = 0 ∧ ev.weight IoEntry.gotBytes = 0 := by
          repeat' (split at h)
          all_goals first
            | (obtain ⟨q, hq, h⟩ := Option.map_eq_some_iff.mp h
               simp only [Prod.mk.injEq] at h
               obtain ⟨rfl, rfl⟩ := h
               exact ⟨rfl, rfl⟩)
            | cases h
        rw [this.1, this.2]
        exact ⟨Nat.zero_le _, Nat.zero_le _⟩

/-- A message arrives at a forwarded connection. -/
theorem TOk.message {log t m p} (h : TOk nd log t) (c : Chance) :
    match tunnelEvent c m p with
    | some (n, ev) => TOk nd (log ++ [.received m p]) (bif t.isOpen && (t.number == n) then t.handle nd ev else t)
    | none => TOk nd (log ++ [.received m p]) t := by
  have hn : t.number < 2 ^ 32 := by
    obtain ⟨pre, post, h⟩ := h
    exact Nat.lt_of_lt_of_le h.number (by decide)
  cases he : tunnelEvent c m p with
  | none =>
    refine h.unpassed fun e hh => ?_
    obtain ⟨ev, h1, _⟩ := (passed_iff c hn m p e).mp hh
    rw [he] at h1
    cases h1
  | some q =>
    obtain ⟨n, ev⟩ := q
    simp only
    cases ho : t.isOpen with
    | false =>
      obtain ⟨pre, post, h⟩ := h
      refine ⟨pre, _, h.extend _ rfl rfl rfl rfl fun r hr => ?_⟩
      obtain ⟨a, b, rfl, hl⟩ := h.live r hr
      exact ⟨a, b ++ [.received m p], by simp, hl.over _ (hl.shut ho)⟩
    | true =>
      cases hq : t.number == n with
      | false =>
        refine h.unpassed fun e hh => ?_
        obtain ⟨ev', h1, _⟩ := (passed_iff c hn m p e).mp hh
        rw [he] at h1
        cases h1
        simp at hq
      | true =>
        have hq := eq_of_beq hq
        subst hq
        simp only [Bool.and_self, cond_true]
        refine h.event _ ev (fun {ms cs} hc => ?_) (tunnelEvent_weight he)
        show Forwarded t.number (ms ++ [m :: p]) _
        cases hm : ev.mark with
        | some e => exact .passed hc ((passed_iff c hn m p e).mpr ⟨ev, he, hm⟩)
        | none =>
          rw [Option.toList_none, List.append_nil]
          refine .other hc fun e hh => ?_
          obtain ⟨ev', h1, h2⟩ := (passed_iff c hn m p e).mp hh
          rw [he] at h1
          cases h1
          rw [hm] at h2
          cases h2

theorem TOk.connected {log t} (h : TOk nd log t) : TOk nd log t.connected := by
  unfold Tunnel.connected
  split
  · exact h
  · cases ho : t.isOpen with
    | false => exact h
    | true =>
      obtain ⟨pre, post, h⟩ := h
      have := h.extend [] (t' := { t with
        relay := some (Relay.init t.window)
        isOpen := true
        out := t.out ++ (serialized (makeChannelOpenConfirmation t.peer t.number RECEIVE_WINDOW 32768)).toList }) rfl rfl rfl rfl fun r hr => ?_
      · rw [List.append_nil] at this
        exact ⟨pre, _, this⟩
      · cases hr
        refine ⟨post ++ [], [], by simp, ⟨[], rfl⟩, (fun hc => nomatch hc), fun _ => ⟨[], List.nil_prefix, .nil, fun _ => rfl⟩, ?_, Nat.zero_le _, Nat.zero_le _⟩
        · rw [serialized_confirmation]
          exact List.sublist_append_right _ _

theorem TOk.failed {log t} (h : TOk nd log t) (text : Bytes) : TOk nd log (t.failed text) := by
  unfold Tunnel.failed
  split
  · exact h
  · rename_i hr
    cases ho : t.isOpen with
    | false => exact h
    | true =>
      obtain ⟨pre, post, h⟩ := h
      have := h.extend [] (t' := { t with
        isOpen := false
        out := t.out ++ (serialized (makeChannelOpenFailure t.peer 2 text)).toList }) rfl rfl rfl rfl fun r hr' => ?_
      · rw [List.append_nil] at this
        exact ⟨pre, _, by simpa using this⟩
      · have hr' : t.relay = some r := hr'
        rw [hr] at hr'
        cases hr'

/-! ### How the list of forwarded connections grows -/

/-- The same forwarded connection, later. -/
structure TunnelLater (t t' : Tunnel) : Prop where
  number : t'.number = t.number
  isOpen : t'.isOpen = true → t.isOpen = true
  out : t.out <+: t'.out

theorem TunnelLater.rfl' {t : Tunnel} : TunnelLater t t := ⟨rfl, id, List.prefix_rfl⟩

theorem TunnelLater.handle (t : Tunnel) (ev) : TunnelLater t (t.handle nd ev) := by
  unfold Tunnel.handle
  split
  · exact .rfl'
  · refine ⟨rfl, fun h => ?_, List.prefix_append _ _⟩
    rw [Bool.and_eq_true] at h
    exact h.1

theorem TunnelLater.connected (t : Tunnel) : TunnelLater t t.connected := by
  unfold Tunnel.connected
  split
  · exact .rfl'
  · cases ho : t.isOpen with
    | false => exact .rfl'
    | true => exact ⟨rfl, fun _ => ho, List.prefix_append _ _⟩

theorem TunnelLater.failed (t : Tunnel) (text) : TunnelLater t (t.failed text) := by
  unfold Tunnel.failed
  split
  · exact .rfl'
  · cases ho : t.isOpen with
    | false => exact .rfl'
    | true => exact ⟨rfl, fun _ => ho, List.prefix_append _ _⟩

inductive TunnelsLater : List Tunnel → List Tunnel → Prop
  | nil {new} : (∀ t ∈ new, t.out = []) → TunnelsLater [] new
  | cons {t t' ts ts'} : TunnelLater t t' → TunnelsLater ts ts' → TunnelsLater (t :: ts) (t' :: ts')

theorem TunnelsLater.rfl' : ∀ {ts : List Tunnel}, TunnelsLater ts ts
  | [] => .nil (by simp)
  | _ :: _ => .cons .rfl' rfl'

theorem TunnelsLater.map {f : Tunnel → Tunnel} (hf : ∀ t, TunnelLater t (f t)) : ∀ ts : List Tunnel, TunnelsLater ts (ts.map f)
  | [] => .nil (by simp)
  | _ :: ts => .cons (hf _) (TunnelsLater.map hf ts)

theorem TunnelsLater.more {new : List Tunnel} (hn : ∀ t ∈ new, t.out = []) : ∀ ts : List Tunnel, TunnelsLater ts (ts ++ new)
  | [] => .nil hn
  | _ :: ts => .cons .rfl' (TunnelsLater.more hn ts)

theorem TunnelsLater.modify {f : Tunnel → Tunnel} (hf : ∀ t, TunnelLater t (f t)) : ∀ (ts : List Tunnel) (i : Nat),
    TunnelsLater ts (ts.modify i f)
  | [], i => by cases i <;> exact .nil (by simp)
  | _ :: ts, 0 => .cons (hf _) .rfl'
  | _ :: ts, i + 1 => .cons .rfl' (TunnelsLater.modify hf ts i)

/-- No two open channels have the same number. -/
def TunnelsApart (ts : List Tunnel) : Prop :=
  ts.Pairwise fun a b => a.isOpen = true → b.isOpen = true → a.number ≠ b.number

theorem TunnelsApart.map {f : Tunnel → Tunnel} (hf : ∀ t, TunnelLater t (f t)) {ts : List Tunnel} (h : TunnelsApart ts) :
    TunnelsApart (ts.map f) := by
  refine List.pairwise_map.mpr (h.imp fun hab ha hb => ?_)
  rw [(hf _).number, (hf _).number]
  exact hab ((hf _).isOpen ha) ((hf _).isOpen hb)

theorem TunnelsApart.modify {f : Tunnel → Tunnel} (hf : ∀ t, TunnelLater t (f t)) : ∀ {ts : List Tunnel} {i : Nat}, TunnelsApart ts →
    TunnelsApart (ts.modify i f)
  | [], i, h => by cases i <;> exact h
  | t :: ts, 0, h => by
    obtain ⟨h1, h2⟩ := List.pairwise_cons.mp h
    refine List.pairwise_cons.mpr ⟨fun b hb ha hb' => ?_, h2⟩
    rw [(hf _).number]
    exact h1 b hb ((hf _).isOpen ha) hb'
  | t :: ts, i + 1, h => by
    obtain ⟨h1, h2⟩ := List.pairwise_cons.mp h
    refine List.pairwise_cons.mpr ⟨fun b hb ha hb' => ?_, TunnelsApart.modify hf h2⟩
    have : ∃ b₀ ∈ ts, TunnelLater b₀ b := by
      have hb : b ∈ ts.modify i f := hb
      obtain ⟨j, hj, rfl⟩ := List.mem_iff_getElem.mp hb
      rw [List.length_modify] at hj
      refine ⟨ts[j], List.getElem_mem _, ?_⟩
      rw [List.getElem_modify]
      split
      · exact hf _
      · exact .rfl'
    obtain ⟨b₀, hb0, hl⟩ := this
    rw [hl.number]
    exact h1 b₀ hb0 ha (hl.isOpen hb')

/-- What the channels say is in what is to be sent. -/
theorem tunnelMessages_sent {old new : List Tunnel} (h : TunnelsLater old new) {P : List Bytes}
    (hs : ∀ t ∈ old, t.out.Sublist P) : ∀ t ∈ new, t.out.Sublist (P ++ tunnelMessages old new) := by
  induction h with
  | nil hn =>
    intro t ht
    rw [hn t ht]
    exact List.nil_sublist _
  | cons hl _ ih =>
    rename_i t t' ts ts' _
    intro u hu
    obtain ⟨l, hl'⟩ := hl.out
    rcases List.mem_cons.mp hu with rfl | hu
    · rw [← hl']
      simp only [tunnelMessages, ← hl', List.drop_left]
      rw [← List.append_assoc]
      exact ((hs t (by simp)).append (List.Sublist.refl _)).trans (List.sublist_append_left _ _)
    · refine (ih (fun t h => hs t (by simp [h])) u hu).trans ?_
      simp only [tunnelMessages]
      exact (List.Sublist.refl P).append (List.sublist_append_right _ _)

/-! ### What is delivered -/

theorem routeAll_plain {c es} (h : es.all plainEntry = true) : ∀ {p ts}, routeAll nd c p es ts = ts := by
  induction es with
  | nil => intro p ts; simp [routeAll]
  | cons e es ih =>
    intro p ts
    rw [List.all_cons, Bool.and_eq_true] at h
    have he := h.1
    cases e <;> first | (exact absurd he (by decide)) | (simp only [routeAll, route]; exact ih h.2) | (exact absurd he nofun)

/-- A new channel. -/
theorem TOk.new {log tail : List AuthEntry} {p q e} {n : Nat} (hq : parseChannelOpen.parse p = some q) (ha : Asks q.type q.rest e)
    (hn : n < 64) :
    TOk nd (log ++ ([.received 90 p, e] ++ tail)) { number := n, peer := q.peerChannel, window := q.window, target := e } := by
  refine ⟨log, tail, ⟨q.type, q.maxPacket, q.rest, ha, ?_⟩, hn, fun r hr => by cases hr⟩
  simp only
  rw [← parseOpen_inv hq, List.append_assoc]

theorem clientMessages_entry {e : AuthEntry} (h : e = .openSession ∨ (∃ m p, e = .channelMessage m p) ∨ (∃ r, e = .restricted r) ∨
    (∃ type rest, Asks type rest e) ∨ ∃ p, AsksBind p e) : clientMessages [e] = [] := by
  rcases h with rfl | ⟨m, p, rfl⟩ | ⟨r, rfl⟩ | ⟨_, _, ha⟩ | ⟨_, ha⟩
  · rfl
  · rfl
  · rfl
  · rcases asks_what ha with ⟨_, _, rfl⟩ | ⟨_, rfl⟩ <;> rfl
  · cases ha <;> rfl

/-- What happens on the connection, and the forwarded connections. -/
theorem routed {old new z : Auth} {es tail : List AuthEntry} (hlog : new.log = old.log ++ (es ++ tail))
    (hn : News old z es) (ht : tail.all plainEntry = true)
    (hprox : old.channels = true → old.proxied = false) {ts : List Tunnel} (hch : ts ≠ [] → old.channels = true)
    (hok : ∀ t ∈ ts, TOk nd old.log t) (hd : TunnelsApart ts) (c : Chance) :
    (∀ t ∈ routeAll nd c [] (es ++ tail) ts, TOk nd new.log t) ∧ TunnelsApart (routeAll nd c [] (es ++ tail) ts) ∧
    TunnelsLater ts (routeAll nd c [] (es ++ tail) ts) ∧
    (routeAll nd c [] (es ++ tail) ts ≠ [] → old.channels = true) := by
  have hct := clientMessages_plain ht
  cases hn with
  | calm hp =>
    have hall : (es ++ tail).all plainEntry = true := by rw [List.all_append, hp, ht]; rfl
    rw [routeAll_plain hall, hlog]
    exact ⟨fun t hs => (hok t hs).plain (clientMessages_plain hall), hd, .rfl', hch⟩
  | other hp hm =>
    rename_i m p es
    have hall : (es ++ tail).all plainEntry = true := by rw [List.all_append, hp, ht]; rfl
    simp only [List.cons_append, routeAll]
    rw [routeAll_plain hall, hlog]
    refine ⟨fun t hs => ?_, hd, .rfl', hch⟩
    have hc := hch (List.ne_nil_of_mem hs)
    have hh : heardMsg m = false := by
      rcases hm with h | h | h
      · exact h
      · rw [hc] at h; cases h
      · rw [hprox hc] at h; cases h
    have := ((hok t hs).unpassed (unpassed_msg (p := p) hh)).plain (clientMessages_plain hall)
    simpa using this
  | opened hc hq hs =>
    rename_i p q
    have hr : routeAll nd c [] ([.received 90 p, .openSession] ++ tail) ts = ts := by
      simp only [List.cons_append, List.nil_append, routeAll, route]
      exact routeAll_plain ht
    rw [hr]
    refine ⟨fun t hs' => ?_, hd, .rfl', hch⟩
    have := (((hok t hs').unpassed (m := 90) (p := p) (unpassed_msg rfl)).plain (clientMessages_entry (e := .openSession) (.inl rfl))).plain hct
    rw [hlog]
    simpa using this
  | restricted hr =>
    rename_i p r
    have hr : routeAll nd c [] ([.received 80 p, .restricted r] ++ tail) ts = ts := by
      simp only [List.cons_append, List.nil_append, routeAll, route]
      exact routeAll_plain ht
    rw [hr]
    refine ⟨fun t hs' => ?_, hd, .rfl', hch⟩
    have := (((hok t hs').unpassed (m := 80) (p := p) (unpassed_msg rfl)).plain
      (clientMessages_entry (e := .restricted r) (.inr (.inr (.inl ⟨_, rfl⟩))))).plain hct
    rw [hlog]
    simpa using this
  | bind hc ha =>
    rename_i p e
    have hr : routeAll nd c [] ([.received 80 p, e] ++ tail) ts = ts := by
      simp only [List.cons_append, List.nil_append, routeAll]
      cases ha <;> simp only [routeAll, route] <;> exact routeAll_plain ht
    rw [hr]
    refine ⟨fun t hs' => ?_, hd, .rfl', hch⟩
    have := (((hok t hs').unpassed (m := 80) (p := p) (unpassed_msg rfl)).plain
      (clientMessages_entry (e := e) (.inr (.inr (.inr (.inr ⟨_, ha⟩)))))).plain hct
    rw [hlog]
    simpa using this
  | forward hc hq ha =>
    rename_i p q e
    have hr : routeAll nd c [] ([.received 90 p, e] ++ tail) ts = openTunnel c p e ts := by
      simp only [List.cons_append, List.nil_append, routeAll]
      rcases asks_what ha with ⟨_, _, rfl⟩ | ⟨_, rfl⟩ <;> simp only [routeAll, route] <;> exact routeAll_plain ht
    rw [hr]
    have hkeep : ∀ t ∈ ts, TOk nd new.log t := by
      intro t hs'
      have := (((hok t hs').unpassed (m := 90) (p := p) (unpassed_msg rfl)).plain
        (clientMessages_entry (e := e) (.inr (.inr (.inr (.inl ⟨_, _, ha⟩)))))).plain hct
      rw [hlog]
      simpa using this
    unfold openTunnel
    simp only [hq]
    cases hg : decide (c.number < MAX_CHANNELS) && !(ts.any fun t => t.isOpen && (t.number == c.number)) with
    | false => exact ⟨hkeep, hd, .rfl', fun _ => hc⟩
    | true =>
      rw [Bool.and_eq_true, decide_eq_true_iff] at hg
      refine ⟨fun t hs' => ?_, ?_, ?_, fun _ => hc⟩
      · rcases List.mem_append.mp hs' with hs' | hs'
        · exact hkeep t hs'
        · rw [List.mem_singleton] at hs'
          subst hs'
          rw [hlog]
          exact TOk.new hq ha hg.1
      · refine List.pairwise_append.mpr ⟨hd, by simp, fun a ha' b hb hao _ hab => ?_⟩
        rw [List.mem_singleton] at hb
        subst hb
        have h2 := hg.2
        rw [Bool.not_eq_true', List.any_eq_false] at h2
        refine h2 a ha' ?_
        rw [hao, Bool.true_and]
        exact beq_iff_eq.mpr hab
      · exact .more (by intro t hs'; rw [List.mem_singleton] at hs'; subst hs'; rfl) ts
  | message hc =>
    rename_i m p
    simp only [List.cons_append, List.nil_append, routeAll, route]
    rw [routeAll_plain ht]
    have hall : ∀ t ∈ ts, TOk nd (old.log ++ [.received m p]) (match tunnelEvent c m p with
        | some (n, ev) => bif t.isOpen && (t.number == n) then t.handle nd ev else t
        | none => t) := by
      intro t hs
      have := (hok t hs).message (m := m) (p := p) c
      revert this
      cases tunnelEvent c m p with
      | none => exact id
      | some q => exact id
    have hm : clientMessages [AuthEntry.channelMessage m p] = [] := rfl
    cases he : tunnelEvent c m p with
    | none =>
      simp only [he] at hall
      refine ⟨fun t hs => ?_, hd, .rfl', hch⟩
      have := ((hall t hs).plain hm).plain hct
      rw [hlog]
      simpa using this
    | some q =>
      obtain ⟨n, ev⟩ := q
      simp only [he] at hall
      have hf : ∀ t : Tunnel, TunnelLater t (bif t.isOpen && (t.number == n) then t.handle nd ev else t) := by
        intro t
        cases t.isOpen && (t.number == n)
        · exact .rfl'
        · exact .handle t _
      refine ⟨fun t hs => ?_, hd.map hf, .map hf ts, fun hne => hch (by simpa [routeTo] using hne)⟩
      obtain ⟨t₀, h0, rfl⟩ := List.mem_map.mp hs
      have := ((hall t₀ h0).plain hm).plain hct
      rw [hlog]
      simpa using this

/-! ### The invariant -/

variable {x : HubEnv σ}

structure HubInv (x : HubEnv σ) (h : Hub σ) : Prop where
  server : SInv x.server h.server
  chan : h.tunnels ≠ [] → h.server.auth.channels = true
  ok : ∀ t ∈ h.tunnels, TOk x.ndebug h.server.auth.log t
  apart : TunnelsApart h.tunnels
  sent : h.server.live = true → ∀ t ∈ h.tunnels, t.out.Sublist (packetsSent h.server.trans.posts)

theorem HubInv.init : HubInv x ({} : Hub σ) where
  server := SInv.init _
  chan := fun h => absurd rfl h
  ok := by intro t ht; cases ht
  apart := List.Pairwise.nil
  sent := by intro _ t ht; cases ht

theorem HubInv.settle (hx : EnvOk x.server.trans) {s : Server σ} {old new : List Tunnel} (hs : SInv x.server s)
    (hc : new ≠ [] → s.auth.channels = true) (hok : ∀ y ∈ new, TOk x.ndebug s.auth.log y) (ha : TunnelsApart new)
    (hl : TunnelsLater old new)
    (hsent : s.live = true → ∀ y ∈ old, y.out.Sublist (packetsSent s.trans.posts)) :
    ∃ h', Hub.settle x s old new = some h' ∧ HubInv x h' := by
  obtain ⟨s', h1, h2, h3, h4, h5⟩ := send_run hx (ps := tunnelMessages old new) hs
  refine ⟨_, by rw [Hub.settle, h1, Option.map_some], h2, by rw [h3]; exact hc, by rw [h3]; exact hok, ha, ?_⟩
  intro hlive y hy
  have hlv := h4 hlive
  simp only
  rw [h5 hlv (hc (List.ne_nil_of_mem hy))]
  exact tunnelMessages_sent hl (hsent hlv) y hy

/-- On the side of the host. -/
theorem HubInv.modify (hx : EnvOk x.server.trans) {h : Hub σ} (hi : HubInv x h) (i : Nat) {f : Tunnel → Tunnel}
    (hf : ∀ t, TunnelLater t (f t)) (hk : ∀ t, TOk x.ndebug h.server.auth.log t → TOk x.ndebug h.server.auth.log (f t)) :
    ∃ h', Hub.settle x h.server h.tunnels (h.tunnels.modify i f) = some h' ∧ HubInv x h' := by
  refine HubInv.settle hx hi.server (fun hne => hi.chan fun he => hne (by rw [he]; cases i <;> rfl)) ?_
    (hi.apart.modify hf) (.modify hf _ _) hi.sent
  intro t ht
  obtain ⟨j, hj, rfl⟩ := List.mem_iff_getElem.mp ht
  rw [List.length_modify] at hj
  have hok := hi.ok _ (List.getElem_mem hj)
  rw [List.getElem_modify]
  split
  · exact hk _ hok
  · exact hok

theorem HubInv.step (hx : EnvOk x.server.trans) {h : Hub σ} (hi : HubInv x h) (ev : HubEvent) :
    ∃ h', h.step x ev = some h' ∧ HubInv x h' := by
  cases ev with
  | connected i => exact hi.modify hx i .connected fun _ => TOk.connected
  | failed i text => exact hi.modify hx i (fun t => .failed t text) fun _ h => h.failed text
  | relay i ev =>
    refine hi.modify hx i (f := fun t => bif ev.isLocal then t.handle x.ndebug ev else t) ?_ ?_
    · intro t
      cases ev.isLocal
      · exact .rfl'
      · exact .handle t ev
    · intro t ht
      cases hl : ev.isLocal
      · exact ht
      · exact ht.local hl
  | server ev c =>
    obtain ⟨s', h1, h2⟩ := hi.server.step hx ev
    simp only [Hub.step, h1, Option.bind_some]
    have hb := below_step hx hi.server h1
    obtain ⟨z, es, tail, n1, n2, n3, n4⟩ := hb.news
    have hprox : h.server.auth.channels = true → h.server.auth.proxied = false := by
      intro hc
      obtain ⟨evs, he⟩ := hi.server.auth
      rcases inv_run (cfg := h.server.cfg x.server) evs with ⟨hp, _⟩ | hp
      · rw [← he] at hp
        have := hp.chan
        rw [hc] at this
        cases this
      · rw [← he] at hp
        exact (hp.chan1 hc).2.1
    have hdr : s'.auth.log.drop h.server.auth.log.length = es ++ tail := by rw [n1, List.drop_left]
    rw [hdr]
    obtain ⟨d1, d2, d3, d4⟩ := routed n1 n2 n3 hprox hi.chan hi.ok hi.apart c
    refine HubInv.settle hx h2 (fun hne => hb.chan (d4 hne)) d1 d2 d3 ?_
    intro hl s hs
    obtain ⟨qs, hqs⟩ := hb.posts
    rw [hqs, packetsSent_append]
    exact (hi.sent (hb.live hl) s hs).trans (List.sublist_append_left _ _)

theorem HubInv.run (hx : EnvOk x.server.trans) (evs : List HubEvent) : ∀ {h : Hub σ}, HubInv x h →
    ∃ h', h.run x evs = some h' ∧ HubInv x h' := by
  induction evs with
  | nil => intro h hi; exact ⟨h, rfl, hi⟩
  | cons ev evs ih =>
    intro h hi
    obtain ⟨h1, e1, i1⟩ := hi.step hx ev
    obtain ⟨h2, e2, i2⟩ := ih i1
    exact ⟨h2, by simp only [Hub.run, e1, Option.bind_some, e2], i2⟩

end Lukko
