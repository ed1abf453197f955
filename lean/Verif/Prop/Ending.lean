import Verif.Proof.Ending
import Verif.Prop.Auth
/-
  Property C85: how a connection ends, and for whom.

  A connection is `Auth.run cfg {} evs` for an arbitrary sequence of events `evs`; its
  `log` says what happened (Spec/Auth.lean, Spec/Ending.lean).
-/
namespace Lukko
open Model Spec

/-- **C85.** The end of a connection is the last thing that happens on it, whatever comes
afterwards. -/
theorem C85_last (cfg : AuthCfg) (evs : List AuthEv) {a b : List AuthEntry} {e : AuthEntry}
    (h : (Auth.run cfg {} evs).log = a ++ e :: b) (he : e.isEnd = true) :
    b = [] ∧ ∀ evs', (Auth.run cfg {} (evs ++ evs')).log = (Auth.run cfg {} evs).log := by
  have hi := einv_run cfg evs
  have hm : e ∈ (Auth.run cfg {} evs).log := by rw [h]; simp
  have hs : (Auth.run cfg {} evs).stop = true := by
    cases hs : (Auth.run cfg {} evs).stop with
    | true => rfl
    | false => have := hi.fresh hs e hm; rw [he] at this; simp at this
  constructor
  · obtain ⟨a', e', h1, _, h2⟩ := hi.over hs
    rw [h] at h1
    rcases Aux.snoc_split h1.symm with ⟨hb, _, _⟩ | ⟨b', rfl, rfl⟩
    · exact hb
    · have := h2 e (by simp)
      rw [he] at this; simp at this
  · intro evs'
    have : ∀ y : Auth, y.stop = true → (Auth.run cfg y evs') = y := by
      intro y hy
      induction evs' with
      | nil => rfl
      | cons ev evs' ih =>
        have h1 : y.step cfg ev = y := by unfold Auth.step; rw [cond_of_true hy]
        simp only [Auth.run, List.foldl_cons, h1] at ih ⊢
        exact ih
    have h2 : Auth.run cfg {} (evs ++ evs') = Auth.run cfg (Auth.run cfg {} evs) evs' := by
      simp [Auth.run, List.foldl_append]
    rw [h2, this _ hs]

example : (Auth.run demoAuth {} (demoLogin 8 ++ [.packet 1 [] false, demoOpen "session" []])).log =
    (Auth.run demoAuth {} (demoLogin 8)).log ++ [.received 1 [], .closed] := by decide +kernel

/-- **C85** (partial: "a client which follows the protocol is not disconnected because of a protocol
error" is false, see below).  Every DISCONNECT the server sends has a reason. PROTOCOL_ERROR follows
immediately on a message which violates the protocol, or on one of the two kinds of messages which
this server does not tolerate although they are allowed (`Strictness`). -/
theorem C85_reason_partial (cfg : AuthCfg) (evs : List AuthEv) {a b : List AuthEntry} {code : Nat}
    (h : (Auth.run cfg {} evs).log = a ++ .disconnected code :: b) : Reason a code :=
  (einv_run cfg evs).why a _ b h

example : .disconnected 2 ∈ (Auth.run demoAuth {} (demoLogin 8 ++ [.packet 80 [0] false])).log ∧
    .disconnected 7 ∈ (Auth.run demoAuth {} [.encrypted, .packet 5 (str (ascii "x")) false]).log ∧
    .disconnected 15 ∈ (Auth.run demoAuth {} (demoGreeting ++
      [.packet 50 (authRequest (ascii "a b") (ascii "none") []) false])).log := by decide +kernel

/-- The connection has not ended. -/
theorem not_ended {cfg : AuthCfg} {evs : List AuthEv} (h : ¬ Ended (Auth.run cfg {} evs).log) :
    (Auth.run cfg {} evs).stop = false := by
  cases hs : (Auth.run cfg {} evs).stop with
  | false => rfl
  | true =>
    obtain ⟨a, e, h1, h2, _⟩ := (einv_run cfg evs).over hs
    exact absurd ⟨a, e, h1, h2⟩ h

theorem auth_run_snoc (cfg : AuthCfg) (evs : List AuthEv) (ev : AuthEv) :
    Auth.run cfg {} (evs ++ [ev]) = (Auth.run cfg {} evs).step cfg ev := by
  simp [Auth.run, List.foldl_append]

/-- **C85.** When the client disconnects, the connection is closed; nothing is sent. -/
theorem C85_disconnect (cfg : AuthCfg) (evs : List AuthEv) (h : ¬ Ended (Auth.run cfg {} evs).log) (p : Bytes)
    (d : Bool) :
    (Auth.run cfg {} (evs ++ [.packet 1 p d])).log = (Auth.run cfg {} evs).log ++ [.received 1 p, .closed] := by
  have hs := not_ended h
  rw [auth_run_snoc]
  generalize Auth.run cfg {} evs = y at hs ⊢
  unfold Auth.step
  rw [cond_of_false hs]
  have h1 : shouldProxy 1 = false := by decide
  have h2 : isChannelMessage 1 = false := by decide
  have h3 : ((1 : UInt8) == MSG_GLOBAL_REQUEST) = false := by decide
  have h4 : allowedWhileOccupied 1 = true := by decide
  have h5 : ¬ (1 : UInt8) = MSG_SERVICE_REQUEST := by decide
  have h6 : ¬ (1 : UInt8) = MSG_USERAUTH_REQUEST := by decide
  simp only [Auth.packet, Auth.laterHandlers, h1, h2, h3, Bool.and_false, cond_false, Auth.userAuthPacket, h4,
    Bool.not_true, Auth.transportPacket, h5, h6, if_false]
  cases hu : (y.say (.received 1 p)).userAuth <;> simp [Auth.say, Auth.close]

example : ¬ Ended (Auth.run demoAuth {} (demoLogin 8)).log := by
  rintro ⟨a, e, h, he⟩
  have h1 : (Auth.run demoAuth {} (demoLogin 8)).log.getLast? = some .success := by decide +kernel
  rw [h, List.getLast?_append, List.getLast?_singleton] at h1
  simp only [Option.some_or, Option.some.injEq] at h1
  subst h1
  simp [AuthEntry.isEnd] at he

/-- Logged in, and this server (not another one) serves the client. -/
structure Served (log : List AuthEntry) : Prop where
  success : .success ∈ log
  here : ∀ p, .requestToTarget p ∉ log

/-- Asked for a login, and not logged in yet. -/
structure LoggingIn (log : List AuthEntry) : Prop where
  encrypted : .encrypted ∈ log
  noLogin : ∀ l, .loggedIn l ∉ log
  notWaiting : ¬ Waiting log

theorem served_state {cfg : AuthCfg} {evs : List AuthEv} (h : Served (Auth.run cfg {} evs).log) :
    (Auth.run cfg {} evs).channels = true ∧ (Auth.run cfg {} evs).proxied = false := by
  have h1 := (einv_run cfg evs).chan h.success h.here
  refine ⟨h1, ?_⟩
  rcases inv_run (cfg := cfg) evs with ⟨h2, _⟩ | h2
  · exact h2.prox
  · exact (h2.chan1 h1).2.1

/-- **C85.** A client which sends a global request that cannot be parsed is disconnected. -/
theorem C85_bad_request (cfg : AuthCfg) (evs : List AuthEv) (h : ¬ Ended (Auth.run cfg {} evs).log)
    (hs : Served (Auth.run cfg {} evs).log) {p : Bytes} (hp : ¬ IsGlobalRequest p) (d : Bool) :
    (Auth.run cfg {} (evs ++ [.packet 80 p d])).log =
      (Auth.run cfg {} evs).log ++ [.received 80 p, .disconnected 2] := by
  obtain ⟨h1, h2⟩ := served_state hs
  have hst := not_ended h
  rw [auth_run_snoc]
  generalize Auth.run cfg {} evs = y at h1 h2 hst ⊢
  have hn : parseGlobalRequest.parse p = none := by
    cases hq : parseGlobalRequest.parse p with
    | none => rfl
    | some q =>
      exfalso
      apply hp
      obtain ⟨s, hq⟩ := parse_inv hq
      obtain ⟨n, s1, g1, hq⟩ := bind_inv hq
      obtain ⟨b, s2, g2, hq⟩ := bind_inv hq
      obtain ⟨rfl, hl⟩ := readString_inv g1
      cases s1 with
      | nil => simp [readBool, readN] at g2
      | cons c s1 => exact ⟨n, c, s1, hl, rfl⟩
  have e1 : isChannelMessage 80 = false := by decide
  have e2 : ((80 : UInt8) == MSG_GLOBAL_REQUEST) = true := by decide
  unfold Auth.step
  rw [cond_of_false hst]
  simp only [Auth.packet, Auth.laterHandlers, Auth.say, h1, h2, e1, e2, Bool.false_and, Bool.and_false, cond_false,
    Bool.true_and, cond_true, Auth.globalPacket, hn, Auth.malformed, Auth.disconnect, List.append_assoc,
    List.singleton_append]

/-- **C85.** A client which sends a CHANNEL_OPEN message that cannot be parsed is disconnected. -/
theorem C85_bad_open (cfg : AuthCfg) (evs : List AuthEv) (h : ¬ Ended (Auth.run cfg {} evs).log)
    (hs : Served (Auth.run cfg {} evs).log) {p : Bytes} (hp : ∀ type data, ¬ OpenHead type data p) (d : Bool) :
    (Auth.run cfg {} (evs ++ [.packet 90 p d])).log =
      (Auth.run cfg {} evs).log ++ [.received 90 p, .disconnected 2] := by
  obtain ⟨h1, h2⟩ := served_state hs
  have hst := not_ended h
  rw [auth_run_snoc]
  generalize Auth.run cfg {} evs = y at h1 h2 hst ⊢
  have hn : parseChannelOpen.parse p = none := by
    cases hq : parseChannelOpen.parse p with
    | none => rfl
    | some q => exact absurd (parseChannelOpen_head hq) (hp _ _)
  have e1 : isChannelMessage 90 = true := by decide
  unfold Auth.step
  rw [cond_of_false hst]
  simp only [Auth.packet, Auth.laterHandlers, Auth.say, h1, h2, e1, Bool.false_and, cond_false,
    Bool.true_and, cond_true, Auth.channelPacket, if_true, hn, Auth.malformed, Auth.disconnect, List.append_assoc,
    List.singleton_append]

example : Served (Auth.run demoAuth {} (demoLogin 8)).log := by
  have h : (Auth.run demoAuth {} (demoLogin 8)).log.all (fun e => match e with | .requestToTarget _ => false | _ => true)
      = true := by decide +kernel
  refine ⟨by decide +kernel, fun p hp => ?_⟩
  have := List.all_eq_true.mp h _ hp
  simp at this

example : ¬ IsGlobalRequest [0, 0, 0, 0] := by
  rintro ⟨n, b, d, _, h⟩
  have := congrArg List.length h
  simp [str, u32] at this

example : ∀ type data, ¬ OpenHead type data [1, 2] := by
  rintro t d ⟨c, w, s, _, _, _, _, h⟩
  have := congrArg List.length h
  simp [str, u32] at this

theorem loggingIn_state {cfg : AuthCfg} {evs : List AuthEv} (h : LoggingIn (Auth.run cfg {} evs).log) :
    (Auth.run cfg {} evs).userAuth = true ∧ (Auth.run cfg {} evs).task = none ∧
    (Auth.run cfg {} evs).channels = false ∧ (Auth.run cfg {} evs).proxied = false ∧
    (Auth.run cfg {} evs).authenticated = false := by
  have hi := einv_run cfg evs
  have h1 := hi.ua h.encrypted h.noLogin
  have h2 : (Auth.run cfg {} evs).task = none := by
    cases ht : (Auth.run cfg {} evs).task with
    | none => rfl
    | some t => exact absurd (hi.task (by rw [ht]; rfl)) h.notWaiting
  rcases inv_run (cfg := cfg) evs with ⟨h3, _⟩ | h3
  · exact ⟨h1, h2, h3.chan, h3.prox, h3.auth⟩
  · obtain ⟨l, hl⟩ := h3.login
    exact absurd hl (h.noLogin l)

/-- **C85.** Before the login, a client which sends a service request that cannot be parsed, or an authentication
request whose user, service or method cannot be parsed, is disconnected. -/
theorem C85_bad_login (cfg : AuthCfg) (evs : List AuthEv) (h : ¬ Ended (Auth.run cfg {} evs).log)
    (hl : LoggingIn (Auth.run cfg {} evs).log) {m : UInt8} {p : Bytes}
    (hp : m = 5 ∧ ¬ IsServiceRequest p ∨ m = 50 ∧ ∀ method fields, ¬ IsAuthRequest method fields p) (d : Bool) :
    (Auth.run cfg {} (evs ++ [.packet m p d])).log =
      (Auth.run cfg {} evs).log ++ [.received m p, .disconnected 2] := by
  obtain ⟨h1, h2, h3, h4, h5⟩ := loggingIn_state hl
  have hst := not_ended h
  rw [auth_run_snoc]
  generalize Auth.run cfg {} evs = y at h1 h2 h3 h4 h5 hst ⊢
  unfold Auth.step
  rw [cond_of_false hst]
  simp only [Auth.packet, Auth.laterHandlers, Auth.say, h3, h4, Bool.false_and, cond_false]
  unfold Auth.userAuthPacket
  simp only [h1, h2, Option.isSome_none, Bool.false_and, Bool.not_true, cond_false]
  rcases hp with ⟨rfl, hp⟩ | ⟨rfl, hp⟩
  · have hn : parseServiceRequest.parse p = none := by
      cases hq : parseServiceRequest.parse p with
      | none => rfl
      | some q =>
        exfalso
        apply hp
        obtain ⟨s, hq⟩ := parse_inv hq
        obtain ⟨n, s1, g1, hq⟩ := bind_inv hq
        obtain ⟨b, s2, g2, hq⟩ := bind_inv hq
        obtain ⟨rfl, hl⟩ := readString_inv g1
        cases s1 with
        | nil => exact ⟨n, hl, by simp⟩
        | cons => simp [expectEnd] at g2
    simp [Auth.serviceRequest, hn, Auth.malformed, Auth.disconnect]
  · have hn : parseAuthReq p = none := by
      cases hq : parseAuthReq p with
      | none => rfl
      | some r =>
        obtain ⟨e1, g1, g2, g3, g4⟩ := parseAuthReq_short hq
        exact absurd ⟨_, _, g1, g2, g3, e1.symm.trans g4⟩ (hp r.method r.rest)
    have e50 : ¬ (50 : UInt8) = MSG_SERVICE_REQUEST := by decide
    simp only [e50, if_false, if_true, Auth.handleUserauthRequest, h5, cond_false, Auth.userAuthRequest, hn]
    cases y.haveService <;> simp [Auth.malformed, Auth.disconnect]

example : LoggingIn (Auth.run demoAuth {} demoGreeting).log := by
  have h : (Auth.run demoAuth {} demoGreeting).log =
      [.encrypted, .received 5 (str (ascii "ssh-userauth")), .serviceAccepted (ascii "ssh-userauth")] := by decide +kernel
  rw [h]
  refine ⟨by simp, by simp, ?_⟩
  rintro ⟨a, p, b, hab, _⟩
  have hm : AuthEntry.received 50 p ∈ a ++ .received 50 p :: b := by simp
  rw [← hab] at hm
  simp at hm

/-! ### Violations -/

/-- **C85 is violated**: a client may send several authentication requests without waiting for the
answers (RFC 4252 section 5.1); this server disconnects it with PROTOCOL_ERROR, "Occupied". -/
theorem C85_pipelining_violated : ∃ (cfg : AuthCfg) (evs : List AuthEv) (before : List AuthEntry) (p : Bytes),
    (Auth.run cfg {} evs).log = before ++ [.received 50 p, .disconnected 2] ∧ ¬ Breach before 50 p := by
  refine ⟨demoAuth, demoGreeting ++ [demoKeyQuery 7, demoKeyQuery 8],
    (Auth.run demoAuth {} (demoGreeting ++ [demoKeyQuery 7])).log,
    authRequest (ascii "joe") (ascii "publickey") (0 :: (str (ascii "alg") ++ str [8])), by decide +kernel, ?_⟩
  rintro (_ | h | h)
  · apply h
    exact ⟨ascii "publickey", 0 :: (str (ascii "alg") ++ str [8]),
      ⟨ascii "joe", ascii "ssh-connection", by decide, by decide, by decide, rfl⟩,
      fun _ => ⟨ascii "alg", [8], by decide, by decide, .inl rfl⟩, fun h => absurd h (by decide), fun h => absurd h (by decide)⟩
  · exact h (by decide +kernel)

/-- **C85 is violated**: all implementations must understand DEBUG (RFC 4253 section 11.3); this server
disconnects a client which sends it while a login is being processed. -/
theorem C85_debug_violated : ∃ (cfg : AuthCfg) (evs : List AuthEv) (before : List AuthEntry) (p : Bytes),
    (Auth.run cfg {} evs).log = before ++ [.received 4 p, .disconnected 2] ∧ ¬ Breach before 4 p := by
  refine ⟨demoAuth, demoGreeting ++ [demoKeyQuery 7, .packet 4 (1 :: (str (ascii "hello") ++ str [])) false],
    (Auth.run demoAuth {} (demoGreeting ++ [demoKeyQuery 7])).log, 1 :: (str (ascii "hello") ++ str []),
    by decide +kernel, ?_⟩
  intro h
  cases h

/-- **C85 is violated**: a request to change the password (RFC 4252 section 8) is well-formed, and the code
means to answer it with USERAUTH_FAILURE ("password change not implemented"), but it has already called
`ExpectEnd()` before the new password: the client is disconnected with PROTOCOL_ERROR. -/
theorem C85_password_change_violated : ∃ (cfg : AuthCfg) (evs : List AuthEv) (before : List AuthEntry) (p : Bytes),
    (Auth.run cfg {} evs).log = before ++ [.received 50 p, .disconnected 2] ∧ ¬ Waiting before ∧ ¬ Breach before 50 p := by
  have hlog : (Auth.run demoAuth {} demoGreeting).log =
      [.encrypted, .received 5 (str (ascii "ssh-userauth")), .serviceAccepted (ascii "ssh-userauth")] := by decide +kernel
  refine ⟨demoAuth, demoGreeting ++ [.packet 50 (authRequest (ascii "joe") (ascii "password")
      (1 :: (str (ascii "old") ++ str (ascii "new")))) false],
    (Auth.run demoAuth {} demoGreeting).log,
    authRequest (ascii "joe") (ascii "password") (1 :: (str (ascii "old") ++ str (ascii "new"))), by decide +kernel, ?_, ?_⟩
  · rw [hlog]
    rintro ⟨a, p, b, hab, _⟩
    have hm : AuthEntry.received 50 p ∈ a ++ .received 50 p :: b := by simp
    rw [← hab] at hm
    simp at hm
  · rintro (_ | h | h)
    · apply h
      exact ⟨ascii "password", 1 :: (str (ascii "old") ++ str (ascii "new")),
        ⟨ascii "joe", ascii "ssh-connection", by decide, by decide, by decide, rfl⟩,
        fun h => absurd h (by decide), fun h => absurd h (by decide),
        fun _ => .inr ⟨1, ascii "old", ascii "new", by decide, by decide, by decide, rfl⟩⟩
    · exact h (by decide +kernel)

end Lukko
