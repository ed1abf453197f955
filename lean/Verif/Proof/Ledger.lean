import Verif.Proof.House
import Verif.Prop.Server
import Verif.Spec.Ledger
/-
  Where the data comes from which is sent to the client.
-/
namespace Lukko
open Spec Model

variable {σ : Type}

/-! ### The layers below -/

theorem isFlow_upper {p : Bytes} (h : isFlow p = true) : isUpper p = true := by
  unfold isFlow isData isAdjust at h
  unfold isUpper
  rw [Bool.or_eq_true, Bool.or_eq_true, beq_iff_eq, beq_iff_eq, beq_iff_eq] at h
  rcases h with (h | h) | h <;> rw [h] <;> decide

theorem isData_flow {p : Bytes} (h : isData p = true) : isFlow p = true := by
  unfold isFlow
  rw [h, Bool.true_or]

theorem isAdjust_flow {p : Bytes} (h : isAdjust p = true) : isFlow p = true := by
  unfold isFlow
  rw [h, Bool.or_true]

theorem count_upper {p : Bytes} (h : isFlow p = true) (l : List Bytes) : (l.filter isUpper).count p = l.count p :=
  List.count_filter (isFlow_upper h)

theorem sendAll_all {t : TransEnv σ} {ps : List Bytes} : ∀ {a b : Model.Trans σ}, a.sendAll t ps = some b →
    b.live = a.live ∧ b.posts = a.posts ++ bif a.live then ps.map .packet else [] := by
  induction ps with
  | nil => intro a b h; cases h; exact ⟨rfl, by cases a.live <;> simp⟩
  | cons p ps ih =>
    intro a b h
    simp only [Trans.sendAll] at h
    obtain ⟨c, h1, h2⟩ := Option.bind_eq_some_iff.mp h
    obtain ⟨g1, g2⟩ := ih h2
    simp only [Trans.step] at h1
    cases hl : a.live with
    | false =>
      rw [hl] at h1
      cases h1
      rw [hl] at g1 g2
      exact ⟨g1, g2⟩
    | true =>
      rw [hl] at h1
      obtain ⟨k1, k2, e⟩ := sendPacket_posts h1
      have hc : c.live = true := by rw [← hl]; simp only [Trans.live, k1, k2]
      rw [hc] at g1 g2
      exact ⟨g1, by rw [g2, e]; simp⟩

/-- What an event adds to what has been sent. -/
structure Credits (s s' : Server σ) : Prop where
  step : ∃ new l, s'.auth.log = s.auth.log ++ new ∧ upperSent s'.trans.posts = upperSent s.trans.posts ++ l ∧
    l <+: (new.filterMap authAnswer).filter isUpper ∧ (s'.live = true → l = (new.filterMap authAnswer).filter isUpper)

theorem Credits.rfl' {s : Server σ} : Credits s s := ⟨[], [], by simp, by simp, by simp, by simp⟩

theorem filter_packets (l : List Bytes) : upperSent (l.map .packet) = l.filter isUpper := by
  unfold upperSent
  congr 1
  induction l with
  | nil => rfl
  | cons p l ih => simpa [packetsSent] using ih

theorem Credits.of {sx : ServerEnv σ} {s s₁ s' : Server σ} {y : Auth} (h : s₁.settle sx y = some s') (ha : s₁.auth = s.auth)
    (hp : upperSent s₁.trans.posts = upperSent s.trans.posts) (hy : ∃ es, y.log = s.auth.log ++ es) : Credits s s' := by
  obtain ⟨es, hes⟩ := hy
  unfold Server.settle at h
  obtain ⟨t, h1, h2⟩ := Option.bind_eq_some_iff.mp h
  obtain ⟨t', h3, h4⟩ := Option.map_eq_some_iff.mp h2
  obtain ⟨g1, g2⟩ := sendAll_all h3
  have ht : t.posts = s₁.trans.posts := by
    cases hb : y.authenticated && !s₁.auth.authenticated with
    | false => rw [hb] at h1; cases h1; rfl
    | true =>
      rw [hb] at h1
      simp only [cond_true, Trans.setAuthenticated] at h1
      cases hl : s₁.trans.live with
      | false => rw [hl] at h1; cases h1; rfl
      | true =>
        rw [hl] at h1
        simp only [cond_true] at h1
        cases hc : s₁.trans.kx.kx.isEncrypted && !s₁.trans.kx.kx.authenticated with
        | false => rw [hc] at h1; cases h1
        | true =>
          rw [hc] at h1
          rw [Bool.and_eq_true, Bool.not_eq_true'] at hc
          simp only [cond_true, Trans.step, hl] at h1
          obtain ⟨b1, b2, ps, b3, -, b4⟩ := absorb_posts h1
          rw [step_authenticated (Trans.live_stop hl) hc.1 hc.2] at b1 b4
          simp only [List.drop_length, true_implies] at b4
          rw [b3, b4, List.append_nil]
  subst h4
  rw [ha, hes, List.drop_left] at g2
  cases hl : t.live with
  | true =>
    rw [hl] at g1 g2
    refine ⟨es, (es.filterMap authAnswer).filter isUpper, ?_, ?_, List.prefix_rfl, fun _ => rfl⟩
    · simp only [g1, cond_true, hes]
    · simp only [g2, ht, cond_true]
      rw [upperSent_append, hp, filter_packets]
  | false =>
    rw [hl] at g1 g2
    obtain ⟨tail, t1, _⟩ := closed_step (s₁.cfg sx) y
    refine ⟨es ++ tail, [], ?_, ?_, List.nil_prefix, ?_⟩
    · simp only [g1, cond_false, t1, hes, List.append_assoc]
    · simp only [g2, ht, cond_false, List.append_nil]
      exact hp
    · intro hz
      simp only [Server.live, g1, Bool.false_and] at hz
      cases hz

/-- Unless something is sent on behalf of others. -/
def ServerEvent.isSend : ServerEvent → Bool
  | .send _ => true
  | _ => false

theorem credits_step {sx : ServerEnv σ} (hx : EnvOk sx.trans) {s s' : Server σ} (hi : SInv sx s) {ev : ServerEvent}
    (hn : ServerEvent.isSend ev = false) (h : s.step sx ev = some s') : Credits s s' := by
  have same : ∀ {t : Model.Trans σ} {z}, upperSent t.posts = upperSent s.trans.posts →
      ({ s with trans := t } : Server σ).settle sx s.auth = some z → Credits s z :=
    fun hp h => .of h rfl hp ⟨[], by simp⟩
  cases ev with
  | send p => cases hn
  | io ev =>
    simp only [Server.step] at h
    cases hg : ev.isIo && (s.live || !ev.needsLive) with
    | false => rw [hg] at h; cases h; exact .rfl'
    | true =>
      rw [hg] at h
      rw [Bool.and_eq_true] at hg
      obtain ⟨t, h1, h2⟩ := Option.bind_eq_some_iff.mp h
      obtain ⟨h3, h4⟩ := io_posts hg.1 h1
      refine same ?_ h2
      rcases h3 with ⟨_, b⟩ | ⟨kev, k1, k2, a, b⟩
      · rw [b]
      · exact posted_upper b (drop_sent (step_tells (e := sx.trans.kex) (y := s.trans.kx) k1))
  | ready d =>
    simp only [Server.step] at h
    cases hl : s.live with
    | false => rw [hl] at h; cases h; exact .rfl'
    | true =>
      rw [hl] at h
      simp only [cond_true, Server.ready] at h
      obtain ⟨t, h1, h2⟩ := Option.bind_eq_some_iff.mp h
      have htl := (Server.live_iff.mp hl).1
      have hp : upperSent t.posts = upperSent s.trans.posts := by
        cases hv : s.trans.kx.kx.versionExchanged with
        | false =>
          obtain ⟨e1, e2⟩ := not_ready (x := sx.trans) (t := s.trans) (by rw [hv, Bool.and_false])
            (claim := bif s.auth.encrypted then s.auth.claim (s.cfg sx) d else fun _ => Claim.unclaimed)
          rw [h1] at e1
          cases e1
          rfl
        | true =>
          have hp := ready_posts htl hv h1
          cases hin : s.trans.incoming sx.trans with
          | none => rw [hin] at hp; rw [hp.2]
          | some p =>
            rw [hin] at hp
            obtain ⟨_, _, c⟩ := hp
            exact posted_upper c (drop_sent (step_tells (e := sx.trans.kex) (y := s.trans.kx) (by simp)))
      split at h2
      · cases he : s.auth.encrypted with
        | true =>
          rw [he] at h2
          simp only [cond_true] at h2
          cases hc : s.trans.kx.kx.isEncrypted with
          | false => rw [hc] at h2; cases h2
          | true =>
            rw [hc] at h2
            obtain ⟨es, n1, _⟩ := news_step (s.cfg sx) s.auth (.packet _ _ d)
            exact .of h2 rfl hp ⟨es, n1⟩
        | false =>
          rw [he] at h2
          simp only [cond_false] at h2
          cases hb : becameEncrypted s.trans.kx.kx t.kx.kx with
          | false => rw [hb] at h2; exact same hp h2
          | true =>
            rw [hb] at h2
            obtain ⟨y, h3, h4⟩ := Option.bind_eq_some_iff.mp h2
            unfold Server.onEncrypted at h3
            cases hq : t.kx.kx.isEncrypted with
            | false => simp only [hq] at h3; cases h3
            | true =>
              simp only [hq, cond_true, Option.some.injEq] at h3
              subst h3
              obtain ⟨es, n1, _⟩ := news_step (({ s with trans := t } : Server σ).cfg sx) s.auth .encrypted
              exact .of h4 rfl hp ⟨es, n1⟩
      · exact same hp h2
  | other ev =>
    simp only [Server.step] at h
    cases hg : s.live && ev.isOther with
    | false => rw [hg] at h; cases h; exact .rfl'
    | true =>
      rw [hg] at h
      obtain ⟨es, n1, _⟩ := news_step (s.cfg sx) s.auth ev
      exact .of h rfl rfl ⟨es, n1⟩

/-- Messages of the channels are sent, unless the connection has come to its end. -/
theorem send_some {sx : ServerEnv σ} {ps : List Bytes} : ∀ {s s' : Server σ}, s.run sx (ps.map .send) = some s' →
    ∃ l, packetsSent s'.trans.posts = packetsSent s.trans.posts ++ l ∧ l.Sublist ps := by
  induction ps with
  | nil => intro s s' h; cases h; exact ⟨[], by simp, .slnil⟩
  | cons p ps ih =>
    intro s s' h
    obtain ⟨s₁, h1, h2⟩ := Option.bind_eq_some_iff.mp h
    obtain ⟨l, g1, g2⟩ := ih h2
    simp only [Server.step] at h1
    cases hg : s.live && s.auth.channels with
    | false => rw [hg] at h1; cases h1; exact ⟨l, g1, g2.cons _⟩
    | true =>
      rw [hg] at h1
      rw [Bool.and_eq_true] at hg
      obtain ⟨t, hq, rfl⟩ := Option.map_eq_some_iff.mp h1
      simp only [Trans.step, (Server.live_iff.mp hg.1).1, cond_true] at hq
      obtain ⟨a, b, e⟩ := sendPacket_posts hq
      refine ⟨p :: l, ?_, g2.cons_cons _⟩
      rw [g1, e, packetsSent_append, List.append_assoc]
      rfl

/-! ### What the channels have to say -/

/-- Everything a session has to say. -/
def sessionSays (s : Session) : List Bytes := s.ch.s.log.filterMap (sessMessage s.peer)

theorem newMessages_count {old new : List Session} (h : SessionsLater old new) (p : Bytes) :
    (newMessages old new).count p + (old.flatMap sessionSays).count p = (new.flatMap sessionSays).count p := by
  induction h with
  | @nil new hn =>
    have : new.flatMap sessionSays = [] := by
      rw [List.flatMap_eq_nil_iff]
      intro s hs
      rw [sessionSays, hn s hs]
      rfl
    simp [this, newMessages]
  | @cons s s' ss ss' hl _ ih =>
    obtain ⟨l, hl'⟩ := hl.log
    simp only [newMessages, List.flatMap_cons, sessionSays, hl', hl.peer, List.drop_left, List.filterMap_append, List.count_append] at ih ⊢
    omega

theorem tunnelMessages_count {old new : List Tunnel} (h : TunnelsLater old new) (p : Bytes) :
    (tunnelMessages old new).count p + (old.flatMap Tunnel.out).count p = (new.flatMap Tunnel.out).count p := by
  induction h with
  | @nil new hn =>
    have : new.flatMap Tunnel.out = [] := by
      rw [List.flatMap_eq_nil_iff]
      exact hn
    simp [this, tunnelMessages]
  | @cons t t' ts ts' hl _ ih =>
    obtain ⟨l, hl'⟩ := hl.out
    simp only [tunnelMessages, List.flatMap_cons, ← hl', List.drop_left, List.count_append] at ih ⊢
    omega

/-- Everything which is to be said about a connection that has arrived. -/
def callSays (c : Incoming) : List Bytes := c.line.out

theorem callMessages_count {old new more : List Incoming} (h : CallsLater old new) (p : Bytes) :
    (callMessages old (new ++ more)).count p + (old.flatMap callSays).count p = ((new ++ more).flatMap callSays).count p := by
  induction h with
  | nil =>
    rw [List.nil_append]
    induction more with
    | nil => rfl
    | cons c more ih =>
      simp only [callMessages, List.flatMap_cons, List.count_append, callSays, List.flatMap_nil, List.count_nil] at ih ⊢
      omega
  | @cons t t' ts ts' hl _ ih =>
    obtain ⟨l, hl'⟩ := hl.out
    simp only [callMessages, List.cons_append, List.flatMap_cons, callSays, ← hl', List.drop_left, List.count_append] at ih ⊢
    omega

/-! ### Which data there is among it -/

/-- It fits into a packet. -/
def fits (p : Bytes) : Bool := decide (p.length ≤ 65531)

theorem serialized_data {Q : Bytes → Bool} {m : Except SerError Ser} {number : UInt8} {body : Bytes} {e : SerError} (h : Builds m number body e)
    (hn : Q (number :: body) = true) : (serialized m).toList.filter Q = [number :: body].filter fits := by
  rw [serialized_builds h]
  by_cases hl : (number :: body).length ≤ 65531
  · rw [if_pos hl]
    have hf : fits (number :: body) = true := decide_eq_true hl
    rw [Option.toList_some, List.filter_cons_of_pos hn, List.filter_cons_of_pos hf]
    rfl
  · rw [if_neg hl]
    simp only [List.length_cons] at hl
    simp [fits, hl]

theorem serialized_other {Q : Bytes → Bool} {m : Except SerError Ser} {number : UInt8} {body : Bytes} {e : SerError} (h : Builds m number body e)
    (hn : Q (number :: body) = false) : (serialized m).toList.filter Q = [] := by
  rw [serialized_builds h]
  by_cases hl : (number :: body).length ≤ 65531
  · rw [if_pos hl]
    simp [hn]
  · rw [if_neg hl]
    rfl

theorem filterMap_data {Q : Bytes → Bool} {α : Type} {f g : α → Option Bytes} (h : ∀ a, (f a).toList.filter Q = (g a).toList.filter fits) (l : List α) :
    (l.filterMap f).filter Q = (l.filterMap g).filter fits := by
  induction l with
  | nil => rfl
  | cons a l ih =>
    have ha := h a
    have hc : ∀ k : α → Option Bytes, (a :: l).filterMap k = (k a).toList ++ l.filterMap k := by
      intro k
      rw [List.filterMap_cons]
      cases k a <;> rfl
    rw [hc, hc, List.filter_append, List.filter_append, ha, ih]

theorem dataBody_data (peer : Nat) (bs : Bytes) :
    (serialized (makeChannelData peer bs)).toList.filter isData = [94 :: channelDataBody peer bs].filter fits :=
  serialized_data (Writes.begin ((Writes.u32 _).bind (Writes.str _)) MSG_CHANNEL_DATA) rfl

theorem session_data (peer : Nat) (e : SessEntry) : (sessMessage peer e).toList.filter isData = (sessionData peer e).toList.filter fits := by
  unfold sessMessage
  split
  · exact serialized_data (Writes.begin ((Writes.u32 _).bind ((Writes.u32 _).bind (Writes.str _))) MSG_CHANNEL_EXTENDED_DATA) rfl
  · rename_i f bs hf
    rw [dataBody_data]
    cases f with
    | stderr => exact (hf rfl).elim
    | _ => rfl
  · exact serialized_other (Writes.noexcept_begin (Writes.u32 _) MSG_CHANNEL_EOF) rfl
  · exact serialized_other (Writes.noexcept_begin (Writes.u32 _) MSG_CHANNEL_CLOSE) rfl
  · exact serialized_other (Writes.noexcept_begin ((Writes.u32 _).bind (Writes.u32 _)) MSG_CHANNEL_WINDOW_ADJUST) rfl
  · rename_i h1 h2 h3 h4 h5
    cases e with
    | sent f bs => exact absurd rfl (h2 f bs)
    | _ => rfl

theorem relay_data (peer : Nat) (e : RelayEntry) : (relayMessage peer e).toList.filter isData = (socketData peer e).toList.filter fits := by
  cases e with
  | toClient bs => exact dataBody_data peer bs
  | closes => exact serialized_other (Writes.noexcept_begin (Writes.u32 _) MSG_CHANNEL_CLOSE) rfl
  | _ => rfl

theorem session_gives (peer : Nat) (e : SessEntry) : (sessMessage peer e).toList.filter isAdjust = (sessionGives peer e).toList.filter fits := by
  unfold sessMessage
  split
  · exact serialized_other (Writes.begin ((Writes.u32 _).bind ((Writes.u32 _).bind (Writes.str _))) MSG_CHANNEL_EXTENDED_DATA) rfl
  · exact serialized_other (Writes.begin ((Writes.u32 _).bind (Writes.str _)) MSG_CHANNEL_DATA) rfl
  · exact serialized_other (Writes.noexcept_begin (Writes.u32 _) MSG_CHANNEL_EOF) rfl
  · exact serialized_other (Writes.noexcept_begin (Writes.u32 _) MSG_CHANNEL_CLOSE) rfl
  · exact serialized_data (Writes.noexcept_begin ((Writes.u32 _).bind (Writes.u32 _)) MSG_CHANNEL_WINDOW_ADJUST) rfl
  · rename_i h1 h2 h3 h4 h5
    unfold sessionGives
    split
    · exact absurd rfl (h5 _)
    · rfl

theorem relay_gives (peer : Nat) (l : List RelayEntry) : (l.filterMap (relayMessage peer)).filter isAdjust = [] := by
  rw [filterMap_data (g := fun _ => none)]
  · simp
  · intro e
    cases e with
    | toClient bs => exact serialized_other (Writes.begin ((Writes.u32 _).bind (Writes.str _)) MSG_CHANNEL_DATA) rfl
    | closes => exact serialized_other (Writes.noexcept_begin (Writes.u32 _) MSG_CHANNEL_CLOSE) rfl
    | _ => rfl

theorem adjust_gives (peer : Nat) (e : IoEntry) : (adjustMessage peer e).toList.filter isAdjust = (socketGives peer e).toList.filter fits := by
  unfold adjustMessage
  split
  · exact serialized_data (Writes.noexcept_begin ((Writes.u32 _).bind (Writes.u32 _)) MSG_CHANNEL_WINDOW_ADJUST) rfl
  · rename_i h1
    unfold socketGives
    split
    · exact absurd rfl (h1 _)
    · rfl

theorem adjust_data (peer : Nat) (l : List IoEntry) : (l.filterMap (adjustMessage peer)).filter isData = [] := by
  rw [filterMap_data (g := fun _ => none)]
  · simp
  · intro e
    unfold adjustMessage
    split
    · exact serialized_other (Writes.noexcept_begin ((Writes.u32 _).bind (Writes.u32 _)) MSG_CHANNEL_WINDOW_ADJUST) rfl
    · rfl

/-- What has been passed on from the other end of a forwarded connection. -/
def Tunnel.dataSaid (t : Tunnel) : List Bytes := (t.relay.map fun r => r.log.filterMap (socketData t.peer)).getD []

/-- What has been allowed to the client on it. -/
def Tunnel.gaveBack (t : Tunnel) : List Bytes := (t.relay.map fun r => r.ch.sock.log.filterMap (socketGives t.peer)).getD []

/-- The data which was sent is what has been passed on, and the adjustments are those of the channel. -/
structure Honest (t : Tunnel) : Prop where
  said : t.out.filter isData = (Tunnel.dataSaid t).filter fits
  gave : t.out.filter isAdjust = (Tunnel.gaveBack t).filter fits

theorem Honest.handle {nd : Bool} {t : Tunnel} (h : Honest t) (ev : RelayEvent) : Honest (t.handle nd ev) := by
  unfold Tunnel.handle
  split
  · exact h
  · rename_i r hr
    constructor
    · obtain ⟨l, hl⟩ := relay_grows nd r ev
      have hs := h.said
      simp only [Tunnel.dataSaid, hr, Option.map_some, Option.getD_some] at hs
      simp only [Tunnel.dataSaid, Option.map_some, Option.getD_some, relayMessages, ← hl, List.drop_left, List.filterMap_append,
        List.filter_append, hs, adjust_data, List.nil_append]
      rw [filterMap_data (relay_data t.peer)]
    · obtain ⟨l, hl⟩ := (relay_widened granted_inward nd r ev).1
      have hs := h.gave
      simp only [Tunnel.gaveBack, hr, Option.map_some, Option.getD_some] at hs
      simp only [Tunnel.gaveBack, Option.map_some, Option.getD_some, relayMessages, ← hl, List.drop_left, List.filterMap_append,
        List.filter_append, hs, relay_gives, List.append_nil]
      rw [filterMap_data (adjust_gives t.peer)]

theorem Honest.connected {t : Tunnel} (h : Honest t) : Honest t.connected := by
  unfold Tunnel.connected
  split
  · exact h
  · rename_i hr
    cases t.isOpen with
    | false => exact h
    | true =>
      constructor
      · have hs := h.said
        simp only [Tunnel.dataSaid, hr, Option.map_none, Option.getD_none, List.filter_nil] at hs
        simp only [cond_true, List.filter_append, hs, serialized_confirmation]
        rfl
      · have hs := h.gave
        simp only [Tunnel.gaveBack, hr, Option.map_none, Option.getD_none, List.filter_nil] at hs
        simp only [cond_true, List.filter_append, hs, serialized_confirmation]
        rfl

theorem Honest.failed {t : Tunnel} (h : Honest t) (text) : Honest (t.failed text) := by
  unfold Tunnel.failed
  split
  · exact h
  · rename_i hr
    cases t.isOpen with
    | false => exact h
    | true =>
      constructor
      · have hs := h.said
        simp only [Tunnel.dataSaid, hr, Option.map_none, Option.getD_none, List.filter_nil] at hs
        simp only [cond_true, List.filter_append, hs, Tunnel.dataSaid, hr, Option.map_none, Option.getD_none, List.filter_nil, List.nil_append]
        exact serialized_other (body := channelOpenFailureBody t.peer 2 text (ascii "en")) (Writes.noexcept_begin ((Writes.u32 _).bind ((Writes.u32 _).bind ((Writes.str _).bind (Writes.str _)))) MSG_CHANNEL_OPEN_FAILURE) rfl
      · have hs := h.gave
        simp only [Tunnel.gaveBack, hr, Option.map_none, Option.getD_none, List.filter_nil] at hs
        simp only [cond_true, List.filter_append, hs, Tunnel.gaveBack, hr, Option.map_none, Option.getD_none, List.filter_nil, List.nil_append]
        exact serialized_other (body := channelOpenFailureBody t.peer 2 text (ascii "en")) (Writes.noexcept_begin ((Writes.u32 _).bind ((Writes.u32 _).bind ((Writes.str _).bind (Writes.str _)))) MSG_CHANNEL_OPEN_FAILURE) rfl

end Lukko
