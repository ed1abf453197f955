import Verif.Proof.Strict
import Verif.Prop.House
import Verif.Spec.Strict
/-
  C113: messages for channels which do not exist, and exceptions in channels, end the connection; all others are heard.
-/
namespace Lukko
open Model Spec

variable {σ : Type} {x : HouseEnv σ}

/-- **C113.** No assertion fails. -/
theorem C113_no_assertion_fails (hx : EnvOk x.host.server.trans) (evs : List HouseEvent) : (({} : House σ).strictRun x evs).isSome := by
  obtain ⟨h, hr⟩ := strict_some (x := x) hx evs HoInv.init
  rw [hr]; rfl

/-- **C113.** The connection is one as in C112, and all that is said there applies to it, and so do C96, C105 and C110. -/
theorem C113_house {evs : List HouseEvent} {h : House σ} (hr : ({} : House σ).strictRun x evs = some h) :
    ∃ evs', ({} : House σ).run x evs' = some h := strict_house hr

theorem HoInv.of_strict (hx : EnvOk x.host.server.trans) {evs : List HouseEvent} {h : House σ}
    (hr : ({} : House σ).strictRun x evs = some h) : HoInv x h := by
  obtain ⟨evs', r⟩ := strict_house hr
  exact HoInv.of_run hx r

/-- A channel with this number is open: it was confirmed, and the client has not closed it. -/
inductive OpenChannel (h : House σ) (n : Nat) : Prop
  | session {s : Session} : s ∈ h.sessions → s.isOpen = true → s.number = n → OpenChannel h n
  | tunnel {t : Tunnel} {r : Relay} : t ∈ h.tunnels → t.isOpen = true → t.relay = some r → t.number = n → OpenChannel h n
  | call {c : Incoming} {r : Relay} : c ∈ h.board.calls → c.line.isOpen = true → c.line.relay = some r → c.line.number = n →
      OpenChannel h n
  /-- the client has confirmed a connection which has already gone -/
  | tomb {c : Incoming} : c ∈ h.board.calls → c.line.isOpen = true → c.tomb = true → c.line.number = n → OpenChannel h n

/-- The server has offered a connection to the client under this number, and waits for the answer. -/
inductive OfferedChannel (h : House σ) (n : Nat) : Prop
  | call {c : Incoming} : c ∈ h.board.calls → c.line.isOpen = true → c.line.relay = none → c.tomb = false → c.line.number = n →
      OfferedChannel h n

theorem reachable_iff {h : House σ} {n : Nat} : h.reachable n = true ↔ OpenChannel h n := by
  simp only [House.reachable, Bool.or_eq_true, List.any_eq_true, Bool.and_eq_true, beq_iff_eq]
  constructor
  · rintro ((⟨s, hs, h1, h2⟩ | ⟨t, ht, ⟨h1, h2⟩, h3⟩) | ⟨c, hc, ⟨h1, h2⟩, h3⟩)
    · exact .session hs h1 h2
    · obtain ⟨r, hr⟩ := Option.isSome_iff_exists.mp h2
      exact .tunnel ht h1 hr h3
    · cases hr : c.line.relay with
      | some r => exact .call hc h1 hr h3
      | none =>
        refine .tomb hc h1 ?_ h3
        simpa [Incoming.awaits, h1, hr] using h2
  · rintro (⟨hs, h1, h2⟩ | ⟨ht, h1, h2, h3⟩ | ⟨hc, h1, h2, h3⟩ | ⟨hc, h1, h2, h3⟩)
    · exact .inl (.inl ⟨_, hs, h1, h2⟩)
    · exact .inl (.inr ⟨_, ht, ⟨h1, by rw [h2]; rfl⟩, h3⟩)
    · exact .inr ⟨_, hc, ⟨h1, by simp [Incoming.awaits, h2]⟩, h3⟩
    · exact .inr ⟨_, hc, ⟨h1, by simp [Incoming.awaits, h2]⟩, h3⟩

theorem awaited_iff {h : House σ} {n : Nat} : h.awaited n = true ↔ OfferedChannel h n := by
  simp only [House.awaited, List.any_eq_true, Bool.and_eq_true, beq_iff_eq, Incoming.awaits, Bool.not_eq_true',
    Option.isNone_iff_eq_none]
  constructor
  · rintro ⟨c, hc, ⟨⟨h1, h2⟩, h3⟩, h4⟩
    exact .call hc h1 h2 h3 h4
  · rintro ⟨hc, h1, h2, h3, h4⟩
    exact ⟨_, hc, ⟨⟨h1, h2⟩, h3⟩, h4⟩

theorem noAddressee_of {h : House σ} {m : UInt8} {p : Bytes}
    (ho : m ≠ 91 → m ≠ 92 → ∀ n < 2 ^ 32, ∀ rest, p = u32 n ++ rest → ¬ OpenChannel h n)
    (hf : m = 91 ∨ m = 92 → ∀ n < 2 ^ 32, ∀ rest, p = u32 n ++ rest → ¬ OfferedChannel h n) : NoAddressee h m p := by
  refine ⟨fun h1 h2 n r hr => ?_, fun h1 n r hr => ?_⟩
  · obtain ⟨g1, g2⟩ := readU32_inv hr
    cases hb : h.reachable n with
    | false => rfl
    | true => exact absurd (reachable_iff.mp hb) (ho h1 h2 n g2 r g1)
  · obtain ⟨g1, g2⟩ := readU32_inv hr
    cases hb : h.awaited n with
    | false => rfl
    | true => exact absurd (awaited_iff.mp hb) (hf h1 n g2 r g1)

theorem strict_log {h h1 h' : House σ} {v : Verdict} (hs : h1.run x v.events = some h') :
    SameChannels h1 h' ∧ ∃ tail, h'.server.auth.log = h1.server.auth.log ++ tail ∧ tail.all plainEntry = true := by
  by_cases hv : v = .fine
  · subst hv
    cases hs
    exact ⟨.rfl', [], by simp, rfl⟩
  · exact ⟨(verdict_ends hv hs).same, (verdict_ends hv hs).log⟩

/-- The entry was already there before the exceptions had their effect. -/
theorem strict_entry (hx : EnvOk x.host.server.trans) {h h1 h2 h' : House σ} (hi : HoInv x h) {ev : HouseEvent} {v w : Verdict}
    (h01 : h.step x ev = some h1) (h12 : h1.run x v.events = some h2) (h23 : h2.run x w.events = some h') {m p}
    (hm : AuthEntry.channelMessage m p ∈ h'.server.auth.log.drop h.server.auth.log.length) :
    AuthEntry.channelMessage m p ∈ h1.server.auth.log.drop h.server.auth.log.length := by
  obtain ⟨_, t1, a1, a2⟩ := strict_log (h := h) h12
  obtain ⟨_, t2, b1, b2⟩ := strict_log (h := h) h23
  have hle : h.server.auth.log.length ≤ h1.server.auth.log.length := by
    obtain ⟨es, he⟩ : ∃ es, h1.server.auth.log = h.server.auth.log ++ es := by
      cases ev with
      | session i ev =>
        simp only [House.step] at h01
        cases hl : ev.isLocal with
        | false => rw [hl] at h01; cases h01; exact ⟨[], by simp⟩
        | true => rw [hl] at h01; exact ⟨[], by rw [settle_auth h01]; simp⟩
      | tunnel ev => exact ⟨[], by rw [settle_auth h01]; simp⟩
      | desk ev => exact ⟨[], by rw [settle_auth h01]; simp⟩
      | server e c =>
        obtain ⟨s, g2, g3⟩ := Option.bind_eq_some_iff.mp (show (h.server.step x.host.server e).bind _ = some h1 from h01)
        rw [settle_auth g3]
        obtain ⟨z, es, tail, n1, _⟩ := (below_step hx (hi.server hx) g2).news
        exact ⟨_, n1⟩
    rw [he, List.length_append]
    omega
  rw [b1, a1, List.append_assoc, List.drop_append_of_le_length hle] at hm
  rcases List.mem_append.mp hm with hm | hm
  · exact hm
  · have := List.all_eq_true.mp (show (t1 ++ t2).all plainEntry = true by rw [List.all_append, a2, b2]; rfl) _ hm
    cases this

/-- **C113.** After a message for a channel which does not exist (any more), or for a connection which is not yet established, or an
answer to an offer which the server has not made, the connection is at its end, and the message had no effect on any channel. -/
theorem C113_no_such_channel (hx : EnvOk x.host.server.trans) {evs : List HouseEvent} {h h' : House σ}
    (hr : ({} : House σ).strictRun x evs = some h) {ev : HouseEvent} (hs : h.strictStep x ev = some h') {m : UInt8} {p : Bytes}
    (hm : AuthEntry.channelMessage m p ∈ h'.server.auth.log.drop h.server.auth.log.length)
    (ho : m ≠ 91 → m ≠ 92 → ∀ n < 2 ^ 32, ∀ rest, p = u32 n ++ rest → ¬ OpenChannel h n)
    (hf : m = 91 ∨ m = 92 → ∀ n < 2 ^ 32, ∀ rest, p = u32 n ++ rest → ¬ OfferedChannel h n) :
    h'.server.live = false ∧ h'.sessions = h.sessions ∧ h'.tunnels = h.tunnels ∧ h'.board.calls = h.board.calls := by
  have hi := HoInv.of_strict hx hr
  have hn := noAddressee_of ho hf
  obtain ⟨h1, s1, r1⟩ := Option.bind_eq_some_iff.mp hs
  obtain ⟨h2, s2, s3⟩ := Option.bind_eq_some_iff.mp r1
  obtain ⟨g1, _, g2⟩ := step_nobody hx hi s1 (strict_entry hx hi s1 s2 s3 hm) hn
  rw [g2] at s2
  have e := verdict_ends (judge_none hn).1 s2
  obtain ⟨f1, _⟩ := strict_log (h := h) s3
  have hall := (g1.trans e.same).trans f1
  refine ⟨?_, hall.sessions, hall.tunnels, hall.calls⟩
  cases ht : h2.threw with
  | true => rw [ht] at s3; exact (close_ends s3).1.dead
  | false => rw [ht] at s3; cases s3; exact e.dead

theorem disconnect_text {text : Bytes} (h : text = ascii "Bad channel" ∨ text = ascii "Malformed packet") :
    serialized (makeDisconnect 2 text) = some (disconnectMessage 2 text) := by
  rcases h with rfl | rfl <;> decide +kernel

/-- **C113.** The last thing which the client is told then is why (except after a window adjustment): `h1` is the connection after
the message has arrived. -/
theorem C113_told (hx : EnvOk x.host.server.trans) {evs : List HouseEvent} {h h1 h' : House σ}
    (hr : ({} : House σ).strictRun x evs = some h) {ev : HouseEvent} (hs1 : h.step x ev = some h1) (hlive : h1.server.live = true)
    (hs : h.strictStep x ev = some h') {m : UInt8} {p : Bytes}
    (hm : AuthEntry.channelMessage m p ∈ h'.server.auth.log.drop h.server.auth.log.length) (hm' : m ≠ 93)
    (ho : m ≠ 91 → m ≠ 92 → ∀ n < 2 ^ 32, ∀ rest, p = u32 n ++ rest → ¬ OpenChannel h n)
    (hf : m = 91 ∨ m = 92 → ∀ n < 2 ^ 32, ∀ rest, p = u32 n ++ rest → ¬ OfferedChannel h n) :
    ∃ text, packetsSent h'.server.trans.posts = packetsSent h1.server.trans.posts ++ [disconnectMessage 2 text] ∧
      (text = ascii "Bad channel" ∨ text = ascii "Malformed packet") := by
  have hi := HoInv.of_strict hx hr
  have hn := noAddressee_of ho hf
  obtain ⟨h1, s1, r1⟩ := Option.bind_eq_some_iff.mp hs
  rw [hs1] at s1
  cases s1
  obtain ⟨h2, s2, s3⟩ := Option.bind_eq_some_iff.mp r1
  obtain ⟨g1, gc, g2⟩ := step_nobody hx hi hs1 (strict_entry hx hi hs1 s2 s3 hm) hn
  rw [g2] at s2
  obtain ⟨text, ht, hx'⟩ := (judge_none hn).2 hm'
  rw [ht] at s2
  obtain ⟨e, e2⟩ := disconnect_ends s2
  refine ⟨text, ?_, hx'⟩
  have := e2 _ (disconnect_text hx') hlive gc
  rw [← this]
  cases ht : h2.threw with
  | true => rw [ht] at s3; rw [(close_ends s3).2]
  | false => rw [ht] at s3; cases s3; rfl

/-- **C113.** As long as the connection exists, no exception was thrown in any of its channels. -/
theorem C113_no_exception {evs : List HouseEvent} {h : House σ} (hr : ({} : House σ).strictRun x evs = some h) (hl : h.server.live = true) :
    (∀ s ∈ h.sessions, s.isOpen = true → s.ch.stop ≠ some .connection) ∧
    (∀ t ∈ h.tunnels, t.isOpen = true → ∀ r, t.relay = some r → r.ch.stop ≠ some .connection) ∧
    ∀ c ∈ h.board.calls, c.line.isOpen = true → ∀ r, c.line.relay = some r → r.ch.stop ≠ some .connection := by
  have := strict_clean (fun _ => rfl) hr hl
  simp only [House.threw, Bool.or_eq_false_iff, List.any_eq_false, Bool.not_eq_true] at this
  refine ⟨fun s hs ho hc => ?_, fun t ht ho r hr hc => ?_, fun c hc ho r hr hc' => ?_⟩
  · have := this.1.1 s hs
    simp [ho, hc] at this
  · have := this.1.2 t ht
    simp [ho, hr, hc] at this
  · have := this.2 c hc
    simp [ho, hr, hc'] at this

/-- **C113.** As long as the connection exists, and the channel has been closed by neither side (and there was no crash), a session is
told everything which the client has sent to it since it was opened, in this order, and nothing else. -/
theorem C113_session_heard (hx : EnvOk x.host.server.trans) {evs : List HouseEvent} {h : House σ}
    (hr : ({} : House σ).strictRun x evs = some h) (hl : h.server.live = true) {s : Session} (hs : s ∈ h.sessions)
    (ho : s.isOpen = true) (hc : s.ch.stop ≠ some .channel) (hu : s.ch.stop ≠ some .ub) (hk : s.ch.stop ≠ some .crash) :
    ∃ pre window size rest post, h.server.auth.log =
        pre ++ [.received 90 (channelOpenBody (ascii "session") s.peer window size rest), .openSession] ++ post ∧
      Meaning s.number (clientMessages post) (s.ch.s.log.filter SessEntry.byClient) := by
  obtain ⟨evs', r⟩ := C113_house hr
  obtain ⟨e, r⟩ := C112_sessions hx r
  obtain ⟨pre, window, size, rest, post, h1, _, ms, h2, h3, h4⟩ := C96_said (x := x.host) hx r hs
  have hn : s.ch.stop = none := by
    have := (C113_no_exception hr hl).1 s hs ho
    cases hst : s.ch.stop with
    | none => rfl
    | some v => rw [hst] at hc hu hk this; cases v <;> simp_all
  rw [h3 hn] at h4
  exact ⟨pre, window, size, rest, post, h1, h4⟩

/-- **C113.** Likewise, what a host receives is the beginning of what the client has sent to this channel, and nothing which the client
has sent was lost or left out. -/
theorem C113_host_heard (hx : EnvOk x.host.server.trans) {evs : List HouseEvent} {h : House σ}
    (hr : ({} : House σ).strictRun x evs = some h) (hl : h.server.live = true) {t : Tunnel} (ht : t ∈ h.tunnels) (hw : 0 < t.window)
    (ho : t.isOpen = true) {r : Relay} (hrel : t.relay = some r) (hc : r.ch.stop ≠ some .channel) (hu : r.ch.stop ≠ some .ub) :
    ∃ pre type size rest mid post es, h.server.auth.log =
        pre ++ [.received 90 (channelOpenBody type t.peer t.window size rest), t.target] ++ (mid ++ post) ∧
      Forwarded t.number (clientMessages post) es ∧ hostHeard r.log <+: clientSaid es := by
  obtain ⟨evs', hr'⟩ := C113_house hr
  obtain ⟨pre, type, size, rest, mid, post, ms, es, h1, h2, h3, h4, h5⟩ := C112_to_host hx hr' ht hw hrel
  have hn : r.ch.stop = none := by
    have := (C113_no_exception hr hl).2.1 t ht ho r hrel
    cases hst : r.ch.stop with
    | none => rfl
    | some v => rw [hst] at hc hu this; cases v <;> simp_all
  rw [h3 hn] at h4
  exact ⟨pre, type, size, rest, mid, post, es, h1, h4, h5⟩

/-- **C113.** And so does the other end of a connection which has arrived at a listener. -/
theorem C113_caller_heard (hx : EnvOk x.host.server.trans) {evs : List HouseEvent} {h : House σ}
    (hr : ({} : House σ).strictRun x evs = some h) (hl : h.server.live = true) {c : Incoming} (hcc : c ∈ h.board.calls)
    (hw : 0 < c.line.window) (ho : c.line.isOpen = true) {r : Relay} (hrel : c.line.relay = some r) (hc : r.ch.stop ≠ some .channel)
    (hu : r.ch.stop ≠ some .ub) :
    ∃ pre size rest post es, h.server.auth.log = pre ++
        [.received 91 (channelOpenConfirmationBody c.line.number c.line.peer c.line.window size rest),
         .channelMessage 91 (channelOpenConfirmationBody c.line.number c.line.peer c.line.window size rest)] ++ post ∧
      Forwarded c.line.number (clientMessages post) es ∧ hostHeard r.log <+: clientSaid es := by
  obtain ⟨evs', hr'⟩ := C113_house hr
  obtain ⟨e, hr'⟩ := C112_listeners hx hr'
  obtain ⟨pre, size, rest, post, ms, es, h1, h2, h3, h4, h5, _⟩ := C110_to_host (x := x.hub) hx hr' hcc hw hrel
  have hn : r.ch.stop = none := by
    have := (C113_no_exception hr hl).2.2 c hcc ho r hrel
    cases hst : r.ch.stop with
    | none => rfl
    | some v => rw [hst] at hc hu this; cases v <;> simp_all
  rw [h3 hn] at h4
  exact ⟨pre, size, rest, post, es, h1, h4, h5⟩

theorem judge_fine {h : House σ} {n : Nat} (hn : n < 2 ^ 32) (ho : OpenChannel h n) {m p} (ht : ToChannel n m p) : h.judge m p = .fine := by
  have hr := reachable_iff.mpr ho
  have hw : ∀ {α : Type} {q : Option α} {a : α} {k : α → Nat}, q = some a → k a = n →
      Verdict.wellFormed q (fun a => .found (h.reachable (k a))) = .fine := by
    intro α q a k h1 h2
    rw [h1]
    simp only [Verdict.wellFormed, h2, hr, Verdict.found, cond_true]
  unfold House.judge
  cases ht with
  | adjust h0 hk =>
    rename_i k
    rw [if_neg (by decide), if_neg (by decide), if_pos rfl, (C05_window_adjust n k hn hk).2.parse]
    simp only [Verdict.wellFormed, Nat.ne_of_gt h0, if_false, hr, Verdict.found, cond_true]
  | data hb =>
    rename_i bs
    rw [if_neg (by decide), if_neg (by decide), if_neg (by decide), if_pos rfl]
    exact hw (C05_channel_data n bs hn hb).2.parse rfl
  | ext ht hb =>
    rename_i t bs
    rw [if_neg (by decide), if_neg (by decide), if_neg (by decide), if_neg (by decide), if_pos rfl]
    exact hw (C05_channel_extended_data n t bs hn ht hb).2.parse rfl
  | eof =>
    rw [if_neg (by decide), if_neg (by decide), if_neg (by decide), if_neg (by decide), if_neg (by decide), if_pos rfl]
    exact hw (k := id) (C05_channel_eof n hn).2.parse rfl
  | close =>
    rw [if_neg (by decide), if_neg (by decide), if_neg (by decide), if_neg (by decide), if_neg (by decide), if_neg (by decide), if_pos rfl]
    exact hw (k := id) (C05_channel_close n hn).2.parse rfl
  | request ht =>
    rename_i type w rest
    obtain ⟨b, hb⟩ := parseRequest_any hn ht w rest
    rw [if_neg (by decide), if_neg (by decide), if_neg (by decide), if_neg (by decide), if_neg (by decide), if_neg (by decide),
      if_neg (by decide), if_pos rfl]
    exact hw hb rfl
  | success =>
    rw [if_neg (by decide), if_neg (by decide), if_neg (by decide), if_neg (by decide), if_neg (by decide), if_neg (by decide),
      if_neg (by decide), if_neg (by decide)]
    refine hw (a := n) (k := id) ?_ rfl
    have := readU32_reads hn []
    rw [List.append_nil] at this
    simp [Parser.parse, parseChannelResponse, channelBody, this]
  | failure =>
    rw [if_neg (by decide), if_neg (by decide), if_neg (by decide), if_neg (by decide), if_neg (by decide), if_neg (by decide),
      if_neg (by decide), if_neg (by decide)]
    refine hw (a := n) (k := id) ?_ rfl
    have := readU32_reads hn []
    rw [List.append_nil] at this
    simp [Parser.parse, parseChannelResponse, channelBody, this]

theorem judgeAll_fine {h : House σ} {es : List AuthEntry} (hj : ∀ m p, AuthEntry.channelMessage m p ∈ es → h.judge m p = .fine) :
    h.judgeAll es = .fine := by
  induction es with
  | nil => rfl
  | cons e es ih =>
    have ih := ih fun m p hm => hj m p (List.mem_cons_of_mem _ hm)
    cases e <;> first
      | exact ih
      | (simp only [House.judgeAll, hj _ _ List.mem_cons_self]; exact ih)

/-- **C113.** Otherwise nothing is added: if what the client has sent are well-formed messages for open channels, and no exception was
thrown in a channel, then all goes on as in C112. -/
theorem C113_otherwise {h h1 : House σ} {ev : HouseEvent} (hs : h.step x ev = some h1)
    (hm : ∀ m p, AuthEntry.channelMessage m p ∈ h1.server.auth.log.drop h.server.auth.log.length →
      ∃ n < 2 ^ 32, ToChannel n m p ∧ OpenChannel h n)
    (he : (∀ s ∈ h1.sessions, s.isOpen = true → s.ch.stop ≠ some .connection) ∧
      (∀ t ∈ h1.tunnels, t.isOpen = true → ∀ r, t.relay = some r → r.ch.stop ≠ some .connection) ∧
      ∀ c ∈ h1.board.calls, c.line.isOpen = true → ∀ r, c.line.relay = some r → r.ch.stop ≠ some .connection) :
    h.strictStep x ev = some h1 := by
  have hj : h.judgeAll (h1.server.auth.log.drop h.server.auth.log.length) = .fine := judgeAll_fine fun m p hp => by
    obtain ⟨n, h1, h2, h3⟩ := hm m p hp
    exact judge_fine h1 h3 h2
  have ht : h1.threw = false := by
    simp only [House.threw, Bool.or_eq_false_iff, List.any_eq_false, Bool.not_eq_true, Bool.and_eq_false_iff]
    refine ⟨⟨fun s hs => ?_, fun t ht => ?_⟩, fun c hc => ?_⟩
    · cases ho : s.isOpen with
      | false => exact .inl rfl
      | true => exact .inr (by simpa using he.1 s hs ho)
    · cases ho : t.isOpen with
      | false => exact .inl rfl
      | true =>
        refine .inr ?_
        cases hr : t.relay with
        | none => rfl
        | some r => simpa using he.2.1 t ht ho r hr
    · cases ho : c.line.isOpen with
      | false => exact .inl rfl
      | true =>
        refine .inr ?_
        cases hr : c.line.relay with
        | none => rfl
        | some r => simpa using he.2.2 c hc ho r hr
  simp only [House.strictStep, hs, Option.bind_some, hj, Verdict.events, House.run, ht, cond_false]

/-- An exception was thrown in a channel. -/
theorem strict_threw {h h1 h' : House σ} {ev : HouseEvent} (h01 : h.step x ev = some h1) (hs : h.strictStep x ev = some h')
    (ht : h1.threw = true) : h'.server.live = false := by
  obtain ⟨g, s1, r1⟩ := Option.bind_eq_some_iff.mp hs
  rw [h01] at s1
  cases s1
  obtain ⟨h2, s2, s3⟩ := Option.bind_eq_some_iff.mp r1
  obtain ⟨f, _⟩ := strict_log (h := h) s2
  have : h2.threw = true := by
    unfold House.threw at ht ⊢
    rw [f.sessions, f.tunnels, f.calls]
    exact ht
  rw [this] at s3
  exact (close_ends s3).1.dead

theorem data_event {c : Chance} {n : Nat} (hn : n < 2 ^ 32) {bs : Bytes} (hb : bs.length < 2 ^ 32) :
    channelEvent c 94 (channelDataBody n bs) = some (n, .recvData bs c.wrote) ∧
    tunnelEvent c 94 (channelDataBody n bs) = some (n, .clientData bs c.wrote) := by
  refine ⟨?_, ?_⟩
  · unfold channelEvent
    rw [if_neg (by decide), if_pos rfl, (C05_channel_data n bs hn hb).2.parse]
    rfl
  · unfold tunnelEvent
    rw [if_neg (by decide), if_pos rfl, (C05_channel_data n bs hn hb).2.parse]
    rfl

theorem absorb_ch {y : Relay} {c : SockCh} : (y.absorb c).ch = c := by
  have hs : ∀ (es : List IoEntry) (z : Relay), (z.sends es).ch = z.ch := by
    intro es
    induction es with
    | nil => intro z; rfl
    | cons e es ih =>
      intro z
      show ((z.send e).sends es).ch = z.ch
      rw [ih]
      unfold Relay.send
      split <;> rfl
  unfold Relay.absorb
  simp only [hs]

/-- If the client sends more to a session or a host than the server has allowed, the connection is at its end (a single message is
not large enough for that; but extended data, for which the server has no use, takes up the window, too). -/
theorem strict_too_much (hx : EnvOk x.host.server.trans) {evs : List HouseEvent} {h h' : House σ}
    (hr : ({} : House σ).strictRun x evs = some h) {ev : HouseEvent} (hs : h.strictStep x ev = some h') {n : Nat} {bs : Bytes}
    (hn : n < 2 ^ 32) (hb : bs.length < 2 ^ 32)
    (hm : AuthEntry.channelMessage 94 (channelDataBody n bs) ∈ h'.server.auth.log.drop h.server.auth.log.length)
    (hc : (∃ s ∈ h.sessions, s.isOpen = true ∧ s.number = n ∧ s.ch.stop = none ∧ s.ch.s.recvWin < bs.length) ∨
      ∃ t ∈ h.tunnels, t.isOpen = true ∧ t.number = n ∧ ∃ r, t.relay = some r ∧ r.ch.stop = none ∧ r.ch.sock.recvWin < bs.length) :
    h'.server.live = false := by
  have hi := HoInv.of_strict hx hr
  obtain ⟨h1, s1, r1⟩ := Option.bind_eq_some_iff.mp hs
  obtain ⟨h2, s2, s3⟩ := Option.bind_eq_some_iff.mp r1
  obtain ⟨e, c, s, tail, rfl, g2, g3, g4, g5, g6⟩ := step_message hx hi s1 (strict_entry hx hi s1 s2 s3 hm)
  refine strict_threw s1 hs ?_
  obtain ⟨q1, q2, _⟩ := house_settle g6
  rw [g3, List.drop_left] at q1 q2
  have e1 := fun c' : Chance => show deliverAll x.host s.auth c' [] ([.received 94 (channelDataBody n bs), .channelMessage 94 (channelDataBody n bs)] ++ tail) h.sessions =
      deliverAll x.host s.auth c' (channelDataBody n bs) tail (deliver x.host s.auth c' (channelDataBody n bs) (.channelMessage 94 (channelDataBody n bs)) h.sessions) from rfl
  have e2 := fun c' : Chance => show routeAll x.ndebug c' [] ([.received 94 (channelDataBody n bs), .channelMessage 94 (channelDataBody n bs)] ++ tail) h.tunnels =
      routeAll x.ndebug c' (channelDataBody n bs) tail (route x.ndebug c' (channelDataBody n bs) (.channelMessage 94 (channelDataBody n bs)) h.tunnels) from rfl
  rw [e1, deliverAll_plain g4] at q1
  rw [e2, routeAll_plain g4] at q2
  simp only [deliver, (data_event hn hb).1] at q1
  simp only [route, (data_event hn hb).2] at q2
  simp only [House.threw, Bool.or_eq_true, List.any_eq_true, Bool.and_eq_true, beq_iff_eq]
  rcases hc with ⟨u, hu, a1, a2, a3, a4⟩ | ⟨t, ht, a1, a2, r, a3, a4, a5⟩
  · refine .inl (.inl ⟨u.handle (.recvData bs c.wrote), ?_, ?_, ?_⟩)
    · rw [q1]
      exact List.mem_map.mpr ⟨u, hu, by simp [a1, a2]⟩
    · simp [Session.handle, a1]
    · simp [Session.handle, SessCh.step, a3, SessCh.handle, a4, SessCh.halt]
  · refine .inl (.inr ⟨t.handle x.ndebug (.clientData bs c.wrote), ?_, ?_⟩)
    · rw [q2]
      exact List.mem_map.mpr ⟨t, ht, by simp [a1, a2]⟩
    · have hst : ((r.step x.ndebug (.clientData bs c.wrote)).ch).stop = some .connection := by
        simp only [Relay.step, a4]
        rw [absorb_ch]
        simp only [Relay.act, Relay.event, SockCh.handle]
        rw [if_pos a5]
      simp [Tunnel.handle, a3, a1, hst]

theorem judgeAll_message {h : House σ} {m p} {tail : List AuthEntry} (ht : tail.all plainEntry = true) :
    h.judgeAll ([.received m p, .channelMessage m p] ++ tail) = h.judge m p := by
  have hp : h.judgeAll tail = .fine := judgeAll_fine fun m p hm => by
    have := List.all_eq_true.mp ht _ hm
    cases this
  show (match h.judge m p with | .fine => h.judgeAll tail | v => v) = _
  rw [hp]
  cases h.judge m p <;> rfl

/-- **C113.** A window adjustment by 0 ends the connection, whatever channel it is for. -/
theorem C113_adjust_zero (hx : EnvOk x.host.server.trans) {evs : List HouseEvent} {h h' : House σ}
    (hr : ({} : House σ).strictRun x evs = some h) {ev : HouseEvent} (hs : h.strictStep x ev = some h') {n : Nat} (hn : n < 2 ^ 32)
    (hm : AuthEntry.channelMessage 93 (windowAdjustBody n 0) ∈ h'.server.auth.log.drop h.server.auth.log.length) :
    h'.server.live = false := by
  have hi := HoInv.of_strict hx hr
  obtain ⟨h1, s1, r1⟩ := Option.bind_eq_some_iff.mp hs
  obtain ⟨h2, s2, s3⟩ := Option.bind_eq_some_iff.mp r1
  obtain ⟨e, c, s, tail, rfl, g2, g3, g4, g5, g6⟩ := step_message hx hi s1 (strict_entry hx hi s1 s2 s3 hm)
  rw [settle_auth g6, g3, List.drop_left, judgeAll_message g4] at s2
  have hj : h.judge 93 (windowAdjustBody n 0) = .close := by
    unfold House.judge
    rw [if_neg (by decide), if_neg (by decide), if_pos rfl, (C05_window_adjust n 0 hn (by decide)).2.parse]
    rfl
  rw [hj] at s2
  have e := (close_ends s2).1
  cases ht : h2.threw with
  | true => rw [ht] at s3; exact (close_ends s3).1.dead
  | false => rw [ht] at s3; cases s3; exact e.dead

/-! ### Non-vacuity -/

/-- As in the example for C112; then the client sends something to the channel which it has closed. -/
def demoBlunder : List Bytes := demoFair ++ [94 :: channelDataBody 1 [9]]

def demoCourt : HouseEnv (Nat × List Bytes) where
  host := { demoInn with server := { trans := demoLink demoEndS 0 demoBlunder, auth := demoAuth } }
  ndebug := false

theorem demoCourt_ok : EnvOk demoCourt.host.server.trans := demoLink_ok (demoEnd_digest _ _) 0 _

def demoSlip : List HouseEvent := demoEnter { number := 3 } (94 :: channelDataBody 1 [9])

/-- Non-vacuity (C113): up to then, all is as in C112, and the channels which are open have been told everything. -/
example : EnvOk demoCourt.host.server.trans ∧
    (({} : House (Nat × List Bytes)).strictRun demoCourt demoParty).map (fun h =>
      (h.server.live && !h.reachable 1 && h.reachable 0 && h.reachable 2,
       h.sessions.map (fun s => s.isOpen && s.ch.stop.isNone),
       h.board.calls.map (fun c => c.line.isOpen && c.line.relay.any (·.ch.stop.isNone)))) =
      some (true, [true], [true]) :=
  ⟨demoCourt_ok, by decide +kernel⟩

/-- … then the connection is at its end, and the client is told why. -/
example :
    (({} : House (Nat × List Bytes)).strictRun demoCourt (demoParty ++ demoSlip)).map (fun h =>
      (h.server.live, (packetsSent h.server.trans.posts).getLast?,
       decide (AuthEntry.channelMessage 94 (channelDataBody 1 [9]) ∈ h.server.auth.log))) =
      some (false, some (disconnectMessage 2 (ascii "Bad channel")), true) := by
  decide +kernel

def demoTrifle : HouseEnv (Nat × List Bytes) where
  host := { demoInn with server := { trans := demoLink demoEndS 0 (demoFair ++ [93 :: windowAdjustBody 0 0]), auth := demoAuth } }
  ndebug := false

/-- … also after a window adjustment by 0 for a channel which is open; then nothing more is sent. -/
example :
    (({} : House (Nat × List Bytes)).strictRun demoTrifle (demoParty ++ demoEnter { number := 3 } (93 :: windowAdjustBody 0 0))).map (fun h =>
      (h.server.live, (packetsSent h.server.trans.posts).getLast?,
       decide (AuthEntry.channelMessage 93 (windowAdjustBody 0 0) ∈ h.server.auth.log))) =
      some (false, some (94 :: channelDataBody 0 [9]), true) := by
  decide +kernel

/-- … and the server does not listen any more. -/
example :
    (({} : House (Nat × List Bytes)).strictRun demoCourt (demoParty ++ demoSlip)).map (fun h => (h.board.fw.listeners, h.board.fw.log.getLast?)) =
      some ([], some .ended) := by
  decide +kernel

end Lukko
