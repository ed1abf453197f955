import Verif.Model.Strict
import Verif.Proof.House
/-
  A connection with channels of all kinds, and with the exceptions: it is a connection as in House.lean, which is closed
  sometimes.
-/
namespace Lukko
open Spec Model

variable {σ : Type} {x : HouseEnv σ}

theorem Model.House.run_append {a b : List HouseEvent} : ∀ {h : House σ}, h.run x (a ++ b) = (h.run x a).bind fun h => h.run x b := by
  induction a with
  | nil => intro h; rfl
  | cons ev a ih =>
    intro h
    simp only [List.cons_append, House.run]
    cases h.step x ev with
    | none => rfl
    | some h' => simp only [Option.bind_some]; exact ih

/-- Whatever is thrown, the connection is one as in House.lean. -/
theorem strict_house {evs : List HouseEvent} : ∀ {h h' : House σ}, h.strictRun x evs = some h' → ∃ evs', h.run x evs' = some h' := by
  induction evs with
  | nil => intro h h' hr; exact ⟨[], hr⟩
  | cons ev evs ih =>
    intro h h' hr
    obtain ⟨h1, r1, r2⟩ := Option.bind_eq_some_iff.mp hr
    obtain ⟨g1, s1, r1⟩ := Option.bind_eq_some_iff.mp r1
    obtain ⟨g2, s2, s3⟩ := Option.bind_eq_some_iff.mp r1
    obtain ⟨evs', r⟩ := ih r2
    refine ⟨[ev] ++ (h.judgeAll (g1.server.auth.log.drop h.server.auth.log.length)).events ++
      (bif g2.threw then Verdict.close else .fine).events ++ evs', ?_⟩
    rw [House.run_append, House.run_append, House.run_append]
    simp only [House.run, s1, Option.bind_some, s2, s3, r]

/-- No assertion fails. -/
theorem strict_some (hx : EnvOk x.host.server.trans) (evs : List HouseEvent) : ∀ {h : House σ}, HoInv x h →
    ∃ h', h.strictRun x evs = some h' := by
  induction evs with
  | nil => intro h _; exact ⟨h, rfl⟩
  | cons ev evs ih =>
    intro h hi
    obtain ⟨h1, e1, i1⟩ := hi.step hx ev
    obtain ⟨h2, e2, i2⟩ := HoInv.run hx (h.judgeAll (h1.server.auth.log.drop h.server.auth.log.length)).events i1
    obtain ⟨h3, e3, i3⟩ := HoInv.run hx (bif h2.threw then Verdict.close else .fine).events i2
    obtain ⟨h4, e4⟩ := ih i3
    exact ⟨h4, by simp only [House.strictRun, House.strictStep, e1, e2, e3, Option.bind_some, e4]⟩

/-- The channels stay as they are. -/
structure SameChannels (h h' : House σ) : Prop where
  sessions : h'.sessions = h.sessions
  tunnels : h'.tunnels = h.tunnels
  calls : h'.board.calls = h.board.calls

theorem SameChannels.rfl' {h : House σ} : SameChannels h h := ⟨rfl, rfl, rfl⟩

theorem SameChannels.trans {a b c : House σ} (h : SameChannels a b) (h' : SameChannels b c) : SameChannels a c :=
  ⟨h'.sessions.trans h.sessions, h'.tunnels.trans h.tunnels, h'.calls.trans h.calls⟩

theorem house_same {h h' : House σ} {s : Server σ} {b : Board} (hb : b.calls = h.board.calls)
    (hs : h.settle x s h.sessions h.tunnels b = some h') : SameChannels h h' ∧ h'.server = s := by
  unfold House.settle at hs
  rw [newMessages_same, tunnelMessages_same, hb, callMessages_same] at hs
  simp only [List.append_nil, List.map_nil, Server.run, Option.map_some, Option.some.injEq] at hs
  subst hs
  refine ⟨⟨rfl, rfl, ?_⟩, rfl⟩
  cases h.server.live && !s.live
  · exact hb
  · rfl

/-- Nothing was heard from the client. -/
theorem house_plain {h h' : House σ} {c : Chance} {s : Server σ} {tail : List AuthEntry} (hl : s.auth.log = h.server.auth.log ++ tail)
    (ht : tail.all plainEntry = true) (hs : h.deliver x s c = some h') : SameChannels h h' ∧ h'.server = s := by
  unfold House.deliver at hs
  rw [hl, List.drop_left, deliverAll_plain ht, routeAll_plain ht, entry_plain ht] at hs
  exact house_same (by cases h.server.live <;> rfl) hs

/-- The connection is closed. -/
theorem closed_server {sx : ServerEnv σ} {s s' : Server σ} (h : s.step sx (.other .closed) = some s') :
    s'.live = false ∧ (∃ tail, s'.auth.log = s.auth.log ++ tail ∧ tail.all plainEntry = true) ∧
      (s'.trans.live = true → s.trans.live = true) ∧ s'.trans.posts = s.trans.posts := by
  simp only [Server.step] at h
  cases hl : s.live with
  | false =>
    rw [hl] at h
    simp only [Bool.false_and, cond_false, Option.some.injEq] at h
    subst h
    exact ⟨hl, ⟨[], by simp, rfl⟩, id, rfl⟩
  | true =>
    rw [hl] at h
    have hstop : s.auth.stop = false := (Server.live_iff.mp hl).2
    have hstep : s.auth.step (s.cfg sx) .closed = s.auth.close := by simp only [Auth.step, hstop, cond_false]
    simp only [AuthEv.isOther, Bool.and_self, cond_true, hstep] at h
    have hy : s.auth.close.step (s.cfg sx) .closed = s.auth.close := by simp [Auth.step, Auth.close]
    unfold Server.settle at h
    have ha : (s.auth.close.authenticated && !s.auth.authenticated) = false := by simp [Auth.close]
    have hlog : (s.auth.close.log.drop s.auth.log.length).filterMap authAnswer = [] := by simp [Auth.close, authAnswer]
    rw [ha, hlog, hy] at h
    simp only [cond_false, Option.bind_some, Trans.sendAll, Option.map_some, Bool.cond_self, Option.some.injEq] at h
    subst h
    refine ⟨?_, ⟨[.closed], rfl, rfl⟩, id, rfl⟩
    cases hz : (Server.live { trans := s.trans, auth := s.auth.close } : Bool) with
    | false => rfl
    | true => exact absurd (Server.live_iff.mp hz).2 (by simp [Auth.close])

/-- From `h` to `h'` the connection is closed, and nothing else happens. -/
structure Ended (h h' : House σ) : Prop where
  same : SameChannels h h'
  dead : h'.server.live = false
  log : ∃ tail, h'.server.auth.log = h.server.auth.log ++ tail ∧ tail.all plainEntry = true
  below : h'.server.trans.live = true → h.server.trans.live = true

theorem close_ends {h h' : House σ} (hs : h.run x Verdict.close.events = some h') :
    Ended h h' ∧ h'.server.trans.posts = h.server.trans.posts := by
  simp only [Verdict.events, House.run] at hs
  obtain ⟨h1, hs, he⟩ := Option.bind_eq_some_iff.mp hs
  cases he
  obtain ⟨s, h1, h2⟩ := Option.bind_eq_some_iff.mp hs
  obtain ⟨g1, ⟨tail, g2, g3⟩, g4, g5⟩ := closed_server h1
  obtain ⟨g6, g7⟩ := house_plain g2 g3 h2
  rw [← g7] at g1 g2 g4 g5
  exact ⟨⟨g6, g1, ⟨tail, g2, g3⟩, g4⟩, g5⟩

theorem send_server {sx : ServerEnv σ} {s s' : Server σ} {p : Bytes} (h : s.step sx (.send p) = some s') :
    s'.auth = s.auth ∧ s'.trans.live = s.trans.live ∧
      (s.live = true → s.auth.channels = true → packetsSent s'.trans.posts = packetsSent s.trans.posts ++ [p]) := by
  simp only [Server.step] at h
  cases hg : s.live && s.auth.channels with
  | false =>
    rw [hg] at h; cases h
    refine ⟨rfl, rfl, fun h1 h2 => ?_⟩
    rw [h1, h2] at hg; cases hg
  | true =>
    rw [hg] at h
    rw [Bool.and_eq_true] at hg
    obtain ⟨t, hq, rfl⟩ := Option.map_eq_some_iff.mp h
    simp only [Trans.step, (Server.live_iff.mp hg.1).1, cond_true] at hq
    obtain ⟨a, b, e⟩ := sendPacket_posts hq
    refine ⟨rfl, by simp only [Trans.live, a, b], fun _ _ => ?_⟩
    rw [e, packetsSent_append]
    rfl

theorem disconnect_ends {h h' : House σ} {text : Bytes} (hs : h.run x (Verdict.disconnect text).events = some h') :
    Ended h h' ∧ ∀ p, serialized (makeDisconnect 2 text) = some p → h.server.live = true → h.server.auth.channels = true →
      packetsSent h'.server.trans.posts = packetsSent h.server.trans.posts ++ [p] := by
  have hev : (Verdict.disconnect text).events = (serialized (makeDisconnect 2 text)).toList.map
      (fun p => HouseEvent.server (.send p) { number := 0 }) ++ Verdict.close.events := rfl
  rw [hev] at hs
  cases hp : serialized (makeDisconnect 2 text) with
  | none =>
    rw [hp] at hs
    exact ⟨(close_ends hs).1, fun p hp => by cases hp⟩
  | some p =>
    rw [hp] at hs
    obtain ⟨h1, r1, r2⟩ := Option.bind_eq_some_iff.mp (show (h.step x _).bind _ = some h' from hs)
    obtain ⟨e, e5⟩ := close_ends r2
    obtain ⟨s, g1, g2⟩ := Option.bind_eq_some_iff.mp r1
    obtain ⟨a1, a2, a3⟩ := send_server g1
    obtain ⟨b1, b2⟩ := house_plain (tail := []) (by rw [a1]; simp) rfl g2
    obtain ⟨tail, t1, t2⟩ := e.log
    rw [b2] at t1 e5
    have hb := e.below
    rw [b2, a2] at hb
    rw [a1] at t1
    refine ⟨⟨b1.trans e.same, e.dead, ⟨tail, t1, t2⟩, hb⟩, fun q hq hl hc => ?_⟩
    cases hq
    rw [e5, a3 hl hc]

theorem verdict_ends {h h' : House σ} {v : Verdict} (hv : v ≠ .fine) (hs : h.run x v.events = some h') : Ended h h' := by
  cases v with
  | fine => exact absurd rfl hv
  | close => exact (close_ends hs).1
  | disconnect text => exact (disconnect_ends hs).1

/-- While the connection exists, there is no channel in which an exception was thrown. -/
theorem strict_clean {evs : List HouseEvent} : ∀ {h h' : House σ}, (h.server.live = true → h.threw = false) → h.strictRun x evs = some h' →
    h'.server.live = true → h'.threw = false := by
  induction evs with
  | nil => intro h h' hi hr; cases hr; exact hi
  | cons ev evs ih =>
    intro h h' hi hr
    obtain ⟨h1, r1, r2⟩ := Option.bind_eq_some_iff.mp hr
    refine ih (fun hl => ?_) r2
    obtain ⟨g1, s1, r1⟩ := Option.bind_eq_some_iff.mp r1
    obtain ⟨g2, s2, s3⟩ := Option.bind_eq_some_iff.mp r1
    cases ht : g2.threw with
    | true =>
      rw [ht] at s3
      rw [(close_ends s3).1.dead] at hl
      cases hl
    | false =>
      rw [ht] at s3
      cases s3
      exact ht

/-! ### A message for a channel which does not exist -/

theorem lead_of {α : Type} {f : Nat → Parser α} {p : Bytes} {q : α} (h : (readU32 >>= f).parse p = some q) :
    ∃ n r s, readU32 p = some (n, r) ∧ f n r = some (q, s) := by
  obtain ⟨s, h0⟩ := parse_inv h
  obtain ⟨n, r, h1, h2⟩ := bind_inv h0
  exact ⟨n, r, s, h1, h2⟩

/-- The number in a message. -/
theorem confirmation_lead {p q} (h : parseChannelOpenConfirmation.parse p = some q) : ∃ r, readU32 p = some (q.localChannel, r) := by
  obtain ⟨n, r, s, h1, h2⟩ := lead_of h
  refine ⟨r, ?_⟩
  obtain ⟨_, _, _, h2⟩ := bind_inv h2
  obtain ⟨_, _, _, h2⟩ := bind_inv h2
  obtain ⟨_, _, _, h2⟩ := bind_inv h2
  obtain ⟨_, _, _, h2⟩ := bind_inv h2
  cases h2
  exact h1

theorem failure_lead {p q} (h : parseChannelOpenFailure.parse p = some q) : ∃ r, readU32 p = some (q.localChannel, r) := by
  obtain ⟨n, r, s, h1, h2⟩ := lead_of h
  refine ⟨r, ?_⟩
  obtain ⟨_, _, _, h2⟩ := bind_inv h2
  obtain ⟨_, _, _, h2⟩ := bind_inv h2
  obtain ⟨_, _, _, h2⟩ := bind_inv h2
  obtain ⟨_, _, _, h2⟩ := bind_inv h2
  cases h2
  exact h1

theorem adjust_lead {p q} (h : parseChannelWindowAdjust.parse p = some q) : ∃ r, readU32 p = some (q.localChannel, r) := by
  obtain ⟨n, r, s, h1, h2⟩ := lead_of h
  refine ⟨r, ?_⟩
  obtain ⟨_, _, _, h2⟩ := bind_inv h2
  obtain ⟨_, _, _, h2⟩ := bind_inv h2
  cases h2
  exact h1

theorem data_lead {p q} (h : parseChannelData.parse p = some q) : ∃ r, readU32 p = some (q.localChannel, r) := by
  obtain ⟨n, r, s, h1, h2⟩ := lead_of h
  refine ⟨r, ?_⟩
  obtain ⟨_, _, _, h2⟩ := bind_inv h2
  obtain ⟨_, _, _, h2⟩ := bind_inv h2
  cases h2
  exact h1

theorem extended_lead {p q} (h : parseChannelExtendedData.parse p = some q) : ∃ r, readU32 p = some (q.localChannel, r) := by
  obtain ⟨n, r, s, h1, h2⟩ := lead_of h
  refine ⟨r, ?_⟩
  obtain ⟨_, _, _, h2⟩ := bind_inv h2
  obtain ⟨_, _, _, h2⟩ := bind_inv h2
  obtain ⟨_, _, _, h2⟩ := bind_inv h2
  cases h2
  exact h1

theorem eof_lead {p n} (h : parseChannelEof.parse p = some n) : ∃ r, readU32 p = some (n, r) := by
  obtain ⟨n, r, s, h1, h2⟩ := lead_of h
  refine ⟨r, ?_⟩
  obtain ⟨_, _, _, h2⟩ := bind_inv h2
  cases h2
  exact h1

theorem end_lead {p n} (h : parseChannelClose.parse p = some n) : ∃ r, readU32 p = some (n, r) := eof_lead h

theorem request_lead {p q} (h : parseChannelRequest.parse p = some q) : ∃ r, readU32 p = some (q.localChannel, r) := by
  obtain ⟨n, r, s, h1, h2⟩ := lead_of h
  refine ⟨r, ?_⟩
  obtain ⟨_, _, _, h2⟩ := bind_inv h2
  obtain ⟨_, _, _, h2⟩ := bind_inv h2
  obtain ⟨_, _, _, h2⟩ := bind_inv h2
  cases h2
  exact h1

theorem response_lead {p n} (h : parseChannelResponse.parse p = some n) : ∃ r, readU32 p = some (n, r) := by
  obtain ⟨s, h0⟩ := parse_inv h
  exact ⟨s, h0⟩

/-- There is no channel for this message. -/
structure NoAddressee (h : House σ) (m : UInt8) (p : Bytes) : Prop where
  others : m ≠ 91 → m ≠ 92 → ∀ n r, readU32 p = some (n, r) → h.reachable n = false
  answers : m = 91 ∨ m = 92 → ∀ n r, readU32 p = some (n, r) → h.awaited n = false

theorem wellFormed_found {α : Type} {q : Option α} {k : α → Bool} (h : ∀ a, q = some a → k a = false) :
    ∃ text, Verdict.wellFormed q (fun a => .found (k a)) = .disconnect text ∧ (text = ascii "Bad channel" ∨ text = ascii "Malformed packet") := by
  cases q with
  | none => exact ⟨_, rfl, .inr rfl⟩
  | some a => exact ⟨ascii "Bad channel", by simp [Verdict.wellFormed, Verdict.found, h a rfl], .inl rfl⟩

theorem judge_none {h : House σ} {m : UInt8} {p : Bytes} (hn : NoAddressee h m p) :
    h.judge m p ≠ .fine ∧ (m ≠ 93 → ∃ text, h.judge m p = .disconnect text ∧ (text = ascii "Bad channel" ∨ text = ascii "Malformed packet")) := by
  have key : m ≠ 93 → ∃ text, h.judge m p = .disconnect text ∧ (text = ascii "Bad channel" ∨ text = ascii "Malformed packet") := by
    intro h93
    unfold House.judge
    split
    · rename_i hm
      exact wellFormed_found fun q hq => by
        obtain ⟨r, hr⟩ := confirmation_lead hq
        exact hn.answers (.inl hm) _ _ hr
    · rename_i g91
      split
      · rename_i hm
        exact wellFormed_found fun q hq => by
          obtain ⟨r, hr⟩ := failure_lead hq
          exact hn.answers (.inr hm) _ _ hr
      · rename_i g92
        have ho := hn.others g91 g92
        split
        · exact wellFormed_found fun q hq => by
            obtain ⟨r, hr⟩ := data_lead hq
            exact ho _ _ hr
        split
        · exact wellFormed_found fun q hq => by
            obtain ⟨r, hr⟩ := extended_lead hq
            exact ho _ _ hr
        split
        · exact wellFormed_found fun q hq => by
            obtain ⟨r, hr⟩ := eof_lead hq
            exact ho _ _ hr
        split
        · exact wellFormed_found fun q hq => by
            obtain ⟨r, hr⟩ := end_lead hq
            exact ho _ _ hr
        split
        · exact wellFormed_found fun q hq => by
            obtain ⟨r, hr⟩ := request_lead hq
            exact ho _ _ hr
        · exact wellFormed_found fun q hq => by
            obtain ⟨r, hr⟩ := response_lead hq
            exact ho _ _ hr
  refine ⟨?_, key⟩
  by_cases h93 : m = 93
  · subst h93
    have hj : h.judge 93 p = .wellFormed (parseChannelWindowAdjust.parse p) fun q =>
        if q.nbytes = 0 then .close else .found (h.reachable q.localChannel) := rfl
    rw [hj]
    cases hq : parseChannelWindowAdjust.parse p with
    | none => exact fun h => by cases h
    | some q =>
      obtain ⟨r, hr⟩ := adjust_lead hq
      simp only [Verdict.wellFormed, hn.others (by decide) (by decide) _ _ hr]
      split
      · exact fun h => by cases h
      · exact fun h => by cases h
  · obtain ⟨text, ht, _⟩ := key h93
    rw [ht]
    exact fun h => by cases h

theorem channelEvent_lead {c : Chance} {m p n ev} (h : channelEvent c m p = some (n, ev)) : ∃ r, readU32 p = some (n, r) := by
  unfold channelEvent at h
  split at h
  · obtain ⟨q, hq, he⟩ := Option.map_eq_some_iff.mp h; cases he; exact adjust_lead hq
  split at h
  · obtain ⟨q, hq, he⟩ := Option.map_eq_some_iff.mp h; cases he; exact data_lead hq
  split at h
  · obtain ⟨q, hq, he⟩ := Option.map_eq_some_iff.mp h; cases he; exact extended_lead hq
  split at h
  · obtain ⟨q, hq, he⟩ := Option.map_eq_some_iff.mp h; cases he; exact eof_lead hq
  split at h
  · obtain ⟨q, hq, he⟩ := Option.map_eq_some_iff.mp h; cases he; exact end_lead hq
  split at h
  · obtain ⟨q, hq, he⟩ := Option.map_eq_some_iff.mp h; cases he; exact request_lead hq
  · cases h

theorem tunnelEvent_lead {c : Chance} {m p n ev} (h : tunnelEvent c m p = some (n, ev)) : ∃ r, readU32 p = some (n, r) := by
  unfold tunnelEvent at h
  split at h
  · obtain ⟨q, hq, he⟩ := Option.map_eq_some_iff.mp h; cases he; exact adjust_lead hq
  split at h
  · obtain ⟨q, hq, he⟩ := Option.map_eq_some_iff.mp h; cases he; exact data_lead hq
  split at h
  · obtain ⟨q, hq, he⟩ := Option.map_eq_some_iff.mp h; cases he; exact extended_lead hq
  split at h
  · obtain ⟨q, hq, he⟩ := Option.map_eq_some_iff.mp h; cases he; exact eof_lead hq
  split at h
  · obtain ⟨q, hq, he⟩ := Option.map_eq_some_iff.mp h; cases he; exact end_lead hq
  · cases h

theorem map_stays {α : Type} {f : α → α} {l : List α} (h : ∀ a ∈ l, f a = a) : l.map f = l := by
  conv => rhs; rw [← List.map_id l]
  exact List.map_congr_left h

theorem pop_nobody {fw n e f} : ∀ {cs : List Incoming}, (∀ c ∈ cs, (c.awaits && (c.line.number == n)) = false) → (pop fw n e f cs).2 = cs
  | [], _ => rfl
  | c :: cs, h => by
    simp only [pop, h c List.mem_cons_self, cond_false]
    rw [pop_nobody fun c hc => h c (List.mem_cons_of_mem _ hc)]

/-- Such a message reaches nobody. -/
theorem message_nobody {y : Auth} {nd : Bool} {c : Chance} {m p q} {h : House σ} (hn : NoAddressee h m p) :
    deliver x.host y c q (.channelMessage m p) h.sessions = h.sessions ∧ route nd c q (.channelMessage m p) h.tunnels = h.tunnels ∧
    (h.board.message nd c m p).calls = h.board.calls := by
  have hr : ∀ {n r}, m ≠ 91 → m ≠ 92 → readU32 p = some (n, r) →
      (∀ s ∈ h.sessions, (s.isOpen && (s.number == n)) = false) ∧
      (∀ t ∈ h.tunnels, (t.isOpen && t.relay.isSome && (t.number == n)) = false) ∧
      ∀ c ∈ h.board.calls, (c.line.isOpen && !c.awaits && (c.line.number == n)) = false := by
    intro n r h1 h2 h3
    have := hn.others h1 h2 n r h3
    simp only [House.reachable, Bool.or_eq_false_iff, List.any_eq_false, Bool.not_eq_true] at this
    exact ⟨this.1.1, this.1.2, this.2⟩
  refine ⟨?_, ?_, ?_⟩
  · simp only [deliver]
    split
    · rename_i n ev he
      obtain ⟨r, hl⟩ := channelEvent_lead he
      have h1 : m ≠ 91 := by rintro rfl; cases he
      have h2 : m ≠ 92 := by rintro rfl; cases he
      exact map_stays fun s hs => by rw [(hr h1 h2 hl).1 s hs]; rfl
    · rfl
  · simp only [route]
    split
    · rename_i n ev he
      obtain ⟨r, hl⟩ := tunnelEvent_lead he
      have h1 : m ≠ 91 := by rintro rfl; cases he
      have h2 : m ≠ 92 := by rintro rfl; cases he
      refine map_stays fun t ht => ?_
      have hb := (hr h1 h2 hl).2.1 t ht
      cases hk : t.isOpen && (t.number == n) with
      | false => rfl
      | true =>
        rw [Bool.and_eq_true] at hk
        rw [hk.1, hk.2, Bool.true_and, Bool.and_true] at hb
        have : t.relay = none := by simpa using hb
        simp only [cond_true, Tunnel.handle, this]
    · rfl
  · unfold Board.message
    split
    · rename_i hm
      split
      · rfl
      · rename_i q hq
        obtain ⟨r, hl⟩ := confirmation_lead hq
        have := hn.answers (.inl hm) _ _ hl
        simp only [House.awaited, List.any_eq_false, Bool.not_eq_true] at this
        exact pop_nobody this
    · rename_i h1
      split
      · rename_i hm
        split
        · rfl
        · rename_i q hq
          obtain ⟨r, hl⟩ := failure_lead hq
          have := hn.answers (.inr hm) _ _ hl
          simp only [House.awaited, List.any_eq_false, Bool.not_eq_true] at this
          exact pop_nobody this
      · rename_i h2
        split
        · rfl
        · rename_i n ev he
          obtain ⟨r, hl⟩ := tunnelEvent_lead he
          refine map_stays fun i hi => ?_
          have hb := (hr h1 h2 hl).2.2 i hi
          cases hk : i.line.isOpen && (i.line.number == n) with
          | false => rfl
          | true =>
            rw [Bool.and_eq_true] at hk
            rw [hk.1, hk.2, Bool.true_and, Bool.and_true] at hb
            have ha : i.awaits = true := by simpa using hb
            simp only [Incoming.awaits, Bool.and_eq_true, Bool.not_eq_true', Option.isNone_iff_eq_none] at ha
            have hsame : i.line.handle nd ev = i.line := by simp only [Tunnel.handle, ha.1.2]
            simp only [cond_true, Incoming.handle, hsame]
            have hf : (i.tomb && (ev == .clientClose)) = false := by rw [ha.2]; rfl
            rw [hf]
            rfl

theorem sends_auth {sx : ServerEnv σ} {ps : List Bytes} : ∀ {s s' : Server σ}, s.run sx (ps.map .send) = some s' → s'.auth = s.auth := by
  induction ps with
  | nil => intro s s' h; cases h; rfl
  | cons p ps ih =>
    intro s s' h
    obtain ⟨s1, h1, h2⟩ := Option.bind_eq_some_iff.mp (show (s.step sx (.send p)).bind _ = some s' from h)
    rw [ih h2, (send_server h1).1]

theorem settle_auth {h h' : House σ} {s ss ts b} (hs : h.settle x s ss ts b = some h') : h'.server.auth = s.auth := by
  obtain ⟨s', h1, rfl⟩ := Option.map_eq_some_iff.mp hs
  exact sends_auth h1

/-- A message for a channel has arrived. -/
theorem step_message (hx : EnvOk x.host.server.trans) {h h1 : House σ} (hi : HoInv x h) {ev : HouseEvent} (hs : h.step x ev = some h1)
    {m p} (hm : AuthEntry.channelMessage m p ∈ h1.server.auth.log.drop h.server.auth.log.length) :
    ∃ e c s tail, ev = .server e c ∧ h.server.step x.host.server e = some s ∧
      s.auth.log = h.server.auth.log ++ ([.received m p, .channelMessage m p] ++ tail) ∧ tail.all plainEntry = true ∧
      s.auth.channels = true ∧ h.deliver x s { c with number := h.number c.number } = some h1 := by
  have nothing : h1.server.auth = h.server.auth → False := by
    intro he
    rw [he, List.drop_length] at hm
    cases hm
  have plain : ∀ {es : List AuthEntry}, es.all plainEntry = true → .channelMessage m p ∈ es → False := by
    intro es he hmem
    have := List.all_eq_true.mp he _ hmem
    cases this
  cases ev with
  | session i ev =>
    simp only [House.step] at hs
    cases hl : ev.isLocal with
    | false => rw [hl] at hs; cases hs; exact (nothing rfl).elim
    | true => rw [hl] at hs; exact (nothing (settle_auth hs)).elim
  | tunnel ev => exact (nothing (settle_auth hs)).elim
  | desk ev => exact (nothing (settle_auth hs)).elim
  | server e c =>
    obtain ⟨s, h2, h3⟩ := Option.bind_eq_some_iff.mp (show (h.server.step x.host.server e).bind _ = some h1 from hs)
    rw [settle_auth h3] at hm
    cases hl : h.server.live with
    | false =>
      obtain ⟨tail, t1, t2⟩ := dead_step hl h2
      rw [t1, List.drop_left] at hm
      exact (plain t2 hm).elim
    | true =>
      have hb := below_step hx (hi.server hx) h2
      obtain ⟨z, es, tail, n1, n2, n3, n4⟩ := hb.news
      rw [n1, List.drop_left] at hm
      have hm' : .channelMessage m p ∈ es := by
        rcases List.mem_append.mp hm with h | h
        · exact h
        · exact (plain n3 h).elim
      cases n2 with
      | calm hp => exact (plain hp hm').elim
      | other hp _ =>
        rcases List.mem_cons.mp hm' with h | h
        · cases h
        · exact (plain hp h).elim
      | opened => simp at hm'
      | forward hc hq ha => rcases asks_what ha with ⟨_, _, rfl⟩ | ⟨_, rfl⟩ <;> simp at hm'
      | bind hc ha => cases ha <;> simp at hm'
      | restricted => simp at hm'
      | message hc =>
        simp at hm'
        obtain ⟨rfl, rfl⟩ := hm'
        exact ⟨e, c, s, tail, rfl, h2, n1, n3, hb.chan hc, h3⟩

/-- If there is no channel for it, nothing happens to the channels. -/
theorem step_nobody (hx : EnvOk x.host.server.trans) {h h1 : House σ} (hi : HoInv x h) {ev : HouseEvent} (hs : h.step x ev = some h1)
    {m p} (hm : AuthEntry.channelMessage m p ∈ h1.server.auth.log.drop h.server.auth.log.length) (hn : NoAddressee h m p) :
    SameChannels h h1 ∧ h1.server.auth.channels = true ∧
    h.judgeAll (h1.server.auth.log.drop h.server.auth.log.length) = h.judge m p := by
  obtain ⟨e, c, s, tail, rfl, h2, h3, h4, h5, h6⟩ := step_message hx hi hs hm
  obtain ⟨g1, g2, g3⟩ := message_nobody (x := x) (y := s.auth) (nd := x.ndebug) (c := { c with number := h.number c.number })
    (q := p) hn
  have hd : h.deliver x s { c with number := h.number c.number } =
      h.settle x s h.sessions h.tunnels (bif h.server.live then h.board.message x.ndebug { c with number := h.number c.number } m p else h.board) := by
    unfold House.deliver
    rw [h3, List.drop_left]
    have e1 : deliverAll x.host s.auth { c with number := h.number c.number } [] ([.received m p, .channelMessage m p] ++ tail) h.sessions =
        deliverAll x.host s.auth { c with number := h.number c.number } p tail
          (deliver x.host s.auth { c with number := h.number c.number } p (.channelMessage m p) h.sessions) := rfl
    have e2 : routeAll x.ndebug { c with number := h.number c.number } [] ([.received m p, .channelMessage m p] ++ tail) h.tunnels =
        routeAll x.ndebug { c with number := h.number c.number } p tail
          (route x.ndebug { c with number := h.number c.number } p (.channelMessage m p) h.tunnels) := rfl
    have e3 : ([AuthEntry.received m p, .channelMessage m p] ++ tail).foldl (Board.entry x.ndebug { c with number := h.number c.number }) h.board =
        tail.foldl (Board.entry x.ndebug { c with number := h.number c.number })
          (h.board.message x.ndebug { c with number := h.number c.number } m p) := rfl
    rw [e1, e2, e3, deliverAll_plain h4, routeAll_plain h4, entry_plain h4, g1, g2]
  rw [hd] at h6
  obtain ⟨a1, a2⟩ := house_same (by
    cases h.server.live
    · rfl
    · exact g3) h6
  refine ⟨a1, by rw [a2]; exact h5, ?_⟩
  rw [a2, h3, List.drop_left]
  have hp : ∀ {es : List AuthEntry}, es.all plainEntry = true → h.judgeAll es = .fine := by
    intro es
    induction es with
    | nil => intro _; rfl
    | cons e es ih =>
      intro he
      rw [List.all_cons, Bool.and_eq_true] at he
      cases e <;> first | exact ih he.2 | cases he.1
  show (match h.judge m p with | .fine => h.judgeAll tail | v => v) = _
  rw [hp h4]
  cases h.judge m p <;> rfl

end Lukko
