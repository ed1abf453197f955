import Verif.Proof.Gateway
/-
  C107: a proxied connection as a whole – the connection of the client, the one to the target, and what is passed
  from one to the other.
-/
namespace Lukko
open Model Spec

variable {σ τ : Type} {x : GatewayEnv σ τ}

/-! ### Messages of the connection protocol -/

theorem connection_upper {p : Bytes} (h : isConnection p = true) : isUpper p = true := by
  simp only [isConnection, isUpper, decide_eq_true_eq, UInt8.le_iff_toNat_le] at h ⊢
  exact Nat.le_trans (by decide) h

theorem defined_connection {p : Bytes} (h : isDefined p = true) : isConnection p = true := by
  cases p with
  | nil => cases h
  | cons m p =>
    simp only [isDefined, decide_eq_true_eq, IsConnectionMessage, List.mem_cons, List.not_mem_nil, or_false] at h
    rcases h with rfl | rfl | rfl | rfl | rfl | rfl | rfl | rfl | rfl | rfl | rfl | rfl | rfl | rfl <;> rfl

theorem upper_connection (l : List Bytes) : (l.filter isUpper).filter isConnection = l.filter isConnection := by
  rw [List.filter_filter]
  refine List.filter_congr fun p _ => ?_
  cases h : isConnection p with
  | false => rfl
  | true => rw [connection_upper h]; rfl

theorem connectionSent_upper (posts : List Outgoing) : connectionSent posts = (upperSent posts).filter isConnection :=
  (upper_connection _).symm

theorem defined_only {l l' : List Bytes} (h : l <+: l'.filter isDefined) : l.filter isConnection = l := by
  rw [List.filter_eq_self]
  intro p hp
  exact defined_connection (List.mem_filter.mp (h.subset hp)).2

theorem login_not_connection {request : Bytes → Prop} {log : List TargetEntry} (h : ProperLogin request log) :
    (loginMessages log).filter isConnection = [] := by
  rw [List.filter_eq_nil_iff]
  intro q hq hc
  obtain ⟨e, he, h1⟩ := List.mem_filterMap.mp hq
  obtain ⟨a, b, hab⟩ := List.append_of_mem he
  have h2 := h a e b hab
  split at h1
  · rename_i m p
    cases h1
    rcases h2 with ⟨h3, -⟩ | ⟨rfl, -⟩
    · cases h3; exact absurd hc (by decide)
    · exact absurd hc (show ¬ decide ((80 : UInt8) ≤ 50) = true by decide)
  · cases h1

theorem answers_connection (log : List AuthEntry) :
    (log.filterMap authAnswer).filter isConnection = (passedOn log).filter isConnection := by
  induction log with
  | nil => rfl
  | cons e log ih =>
    have skip : ∀ {o : Option Bytes}, authAnswer e = o → (∀ p, o = some p → isConnection p = false) →
        passedOn (e :: log) = passedOn log →
        ((e :: log).filterMap authAnswer).filter isConnection = (passedOn (e :: log)).filter isConnection := by
      intro o ho hp hk
      rw [hk, ← ih]
      cases o with
      | none => rw [List.filterMap_cons_none ho]
      | some p => rw [List.filterMap_cons_some ho, List.filter_cons, hp p rfl]; rfl
    have short : ∀ {p q : Bytes} {n : UInt8}, (n :: q = p ∧ p.length ≤ 65531) → decide (80 ≤ n) = false → isConnection p = false := by
      rintro p q n ⟨rfl, -⟩ hn; exact hn
    have told : ∀ p, authAnswer e = some p → (∀ n q, e ≠ .toClient n q) → isConnection p = false := by
      intro p hp hn
      rcases answer_message.mp hp with ⟨_, rfl⟩ | ⟨h1, -⟩
      · rfl
      · cases e <;> simp only [AuthEntry.message?, reduceCtorEq, Option.some.injEq] at h1
        all_goals first
          | (subst h1; rfl)
          | exact absurd rfl (hn _ _)
    by_cases hc : ∃ n q, e = .toClient n q
    · obtain ⟨n, q, rfl⟩ := hc
      show ((n :: q) :: log.filterMap authAnswer).filter isConnection = ((n :: q) :: passedOn log).filter isConnection
      rw [List.filter_cons, List.filter_cons, ih]
    · have hn : ∀ n q, e ≠ .toClient n q := fun n q he => hc ⟨n, q, he⟩
      refine skip rfl (fun p hp => told p hp hn) ?_
      cases e <;> first | rfl | exact absurd rfl (hn _ _)

/-! ## C107 -/

/-- **C107.** Whatever happens on the two connections, in whatever order, no assertion fails; in particular nothing is
sent on a connection which has come to its end. -/
theorem C107_no_assertion_fails (hx : GatewayOk x) (evs : List GatewayEvent) : (({} : Gateway σ τ).run x evs).isSome := by
  obtain ⟨s', h1, _⟩ := GInv.run hx evs (GInv.init x)
  rw [h1]; rfl

/-- **C107.** Each of the two connections goes the way which is described in C93 (and C94) and in C106. -/
theorem C107_halves (hx : GatewayOk x) {evs : List GatewayEvent} {s : Gateway σ τ} (h : ({} : Gateway σ τ).run x evs = some s) :
    (∃ sevs, ({} : Server σ).run x.server sevs = some s.server) ∧
    ∃ user cevs, ({} : Caller τ).run { trans := x.out, login := { x.login with user := user } } cevs = some s.caller := by
  have hi := GInv.of_run hx h
  exact ⟨hi.srv, _, hi.call⟩

/-- **C107.** Nothing is done at a target before the client has logged in; the login at the target is for the same
user; it takes place only at a host whose key is accepted and which has proved to have it, and is good for this
connection only. -/
theorem C107_user (hx : GatewayOk x) {evs : List GatewayEvent} {s : Gateway σ τ} (h : ({} : Gateway σ τ).run x evs = some s)
    (hne : s.caller.login.log ≠ []) :
    ∃ l t accepts sig, .loggedIn l ∈ s.server.auth.log ∧ firstAgreed s.caller.trans.kx.kx.log = some t ∧
      x.out.kex.verifier = some accepts ∧ accepts t.hostKey = true ∧
      x.out.kex.verify t.hostKey (x.out.kex.digest (hashInput t)) sig = true ∧
      ProperLogin ({ x.login with user := l.user, sessionId := x.out.kex.digest (hashInput t) } : TargetCfg).IsRequest s.caller.login.log := by
  have hi := GInv.of_run hx h
  obtain ⟨cevs, hc⟩ := hi.call
  obtain ⟨t, accepts, sig, h1, h2, h3, h4, h5⟩ := C106_login hx.out (hx.login.forUser _) hc hne
  have ho : s.server.auth.outgoing = true := by
    cases ho : s.server.auth.outgoing with
    | true => rfl
    | false => rw [hi.idle ho] at hne; exact absurd rfl hne
  obtain ⟨aevs, ha⟩ := (hi.sinv hx).auth
  have hpost : AuthPost (s.server.cfg x.server) s.server.auth := by
    rcases inv_run (cfg := s.server.cfg x.server) aevs with ⟨g, _⟩ | g
    · rw [← ha] at g; rw [g.out] at ho; cases ho
    · rw [← ha] at g; exact g
  obtain ⟨l, g1, -, -, -, g2⟩ := hpost.perms
  refine ⟨l, t, accepts, sig, g1, h1, h2, h3, h4, ?_⟩
  rw [← g2]
  exact h5

/-- **C107.** What the proxy sends to the target in the name of the client: first the restrictions which are in effect,
then the messages of the connection protocol which the client has sent since then, unchanged and in their order.  All of
them, as long as the connection to the target exists; and nothing of it before the target has granted the login. -/
theorem C107_to_target (hx : GatewayOk x) {evs : List GatewayEvent} {s : Gateway σ τ} (h : ({} : Gateway σ τ).run x evs = some s) :
    (connectionSent s.caller.trans.posts = [] ∧ (∀ m, .requestToTarget m ∉ s.server.auth.log)) ∨
    ∃ a m b r, s.server.auth.log = a ++ .requestToTarget m :: b ∧ inEffect a = some r ∧ CarriesRestrictions m r ∧
      .loggedIn ∈ s.caller.login.log ∧
      connectionSent s.caller.trans.posts <+: m :: (clientMessages b).filter isDefined ∧
      (s.caller.live = true → connectionSent s.caller.trans.posts = m :: (clientMessages b).filter isDefined) ∧
      clientMessages a ++ clientMessages b <+: receivedEncrypted s.server.trans.kx.kx.log := by
  have hi := GInv.of_run hx h
  have hc := hi.cinv hx
  have ht := hc.target (hx.login.forUser _)
  obtain ⟨aevs, ha⟩ := (hi.sinv hx).auth
  have hup : connectionSent s.caller.trans.posts <+: s.caller.given.filter isConnection := by
    have := hc.upper.filter isConnection
    rwa [← connectionSent_upper, upper_connection, List.filter_append, login_not_connection ht.proper, List.nil_append] at this
  have heq : s.caller.live = true → connectionSent s.caller.trans.posts = s.caller.given.filter isConnection := by
    intro hl
    rw [connectionSent_upper, hc.upperEq (Caller.live_iff.mp hl).1, upper_connection, List.filter_append,
      login_not_connection ht.proper, List.nil_append]
  rcases hi.plan with ⟨h1, h2⟩ | ⟨a, m, b, h1, h2, h3, h4, h5⟩
  · refine .inl ⟨?_, h1⟩
    rw [hi.sent, h2] at hup
    exact List.prefix_nil.mp hup
  · right
    obtain ⟨-, r, hr, hm⟩ := before_run (cfg := s.server.cfg x.server) aevs a (.requestToTarget m) b (by rw [← ha]; exact h1)
    have hg : s.caller.given.filter isConnection = m :: towards b := by
      rw [hi.sent, h1, towards_append, h2, List.nil_append, show towards (.requestToTarget m :: b) = m :: towards b from rfl,
        List.filter_cons, defined_only h4]
      obtain ⟨os, rfl, -⟩ := hm
      rfl
    refine ⟨a, m, b, r, h1, hr, hm, ?_, ?_, fun hl => ?_, ?_⟩
    · refine ht.known.mp (hc.later ?_)
      intro hn
      rw [hn] at hg
      cases hg
    · rw [hg] at hup
      exact hup.trans ((List.cons_prefix_cons).mpr ⟨rfl, h4⟩)
    · rw [heq hl, hg, h5 hl]
    · refine List.IsPrefix.trans ?_ (hi.sinv hx).recv
      rw [h1, clientMessages_append]
      exact List.prefix_rfl

/-- **C107.** What the proxy sends to the client in the name of the target, once there is a connection to one: the
messages of the connection protocol which the target has sent since it granted the login, unchanged and in their order.
All of them, as long as the connection of the client exists. -/
theorem C107_to_client (hx : GatewayOk x) {evs : List GatewayEvent} {s : Gateway σ τ} (h : ({} : Gateway σ τ).run x evs = some s)
    (ho : s.server.auth.outgoing = true) :
    connectionSent s.server.trans.posts <+: (targetTalk s.caller.login.log).filter isDefined ∧
    (s.server.live = true → connectionSent s.server.trans.posts = (targetTalk s.caller.login.log).filter isDefined) ∧
    targetMessages s.caller.login.log <+: receivedEncrypted s.caller.trans.kx.kx.log := by
  have hi := GInv.of_run hx h
  have hs := hi.sinv hx
  obtain ⟨aevs, ha⟩ := hs.auth
  have hch : s.server.auth.channels = false := by
    rcases inv_run (cfg := s.server.cfg x.server) aevs with ⟨g, _⟩ | g
    · rw [← ha] at g; rw [g.out] at ho; cases ho
    · rw [← ha] at g
      cases hch : s.server.auth.channels with
      | false => rfl
      | true => rw [(g.chan1 hch).1] at ho; cases ho
  have hp : (passedOn s.server.auth.log).filter isConnection = (targetTalk s.caller.login.log).filter isDefined := by
    rw [hi.said, ← hi.heard, List.append_nil]
    exact defined_only (l' := targetSaid s.server.auth.log) List.prefix_rfl
  obtain ⟨h1, h2⟩ := hs.exact hch
  refine ⟨?_, fun hl => ?_, (hi.cinv hx).recv⟩
  · have := h1.filter isConnection
    rwa [← connectionSent_upper, upper_connection, answers_connection, hp] at this
  · rw [connectionSent_upper, h2 (Server.live_iff.mp hl).1, upper_connection, answers_connection, hp]

/-! ### A connection -/

/-- The encrypted packets of the client; the last one is not of the connection protocol. -/
def demoTraveller : List Bytes := demoVisit ++ [[98, 1], [110, 1]]

/-- What the target sends after the key exchange; the last but one is not of the connection protocol. -/
def demoTargetSays : List Bytes := [6 :: str (ascii "ssh-userauth"), [52], [91, 7], [120], [94, 8]]

def demoGateway : GatewayEnv (Nat × List Bytes) (Nat × List Bytes) where
  server := { trans := demoLink demoEndS 0 demoTraveller, auth := demoProxy }
  out := demoLink demoEndC 0 demoTargetSays
  login := demoTarget

def demoGatewayCall : CallerEvent → GatewayEvent
  | .io ev => .io ev
  | .ready _ => .ready
  | _ => .lost

def demoGatewayEvents : List GatewayEvent :=
  (demoArrive ++ (demoTraveller.take 2).flatMap demoKnock ++
    [ServerEvent.other (.translated (some {})), ServerEvent.other (.connected true)]).map .client ++
  (demoCallArrive ++ (demoTargetSays.take 2).flatMap demoCallHear).map demoGatewayCall ++
  ((demoTraveller.drop 2).flatMap demoKnock).map .client ++
  ((demoTargetSays.drop 2).flatMap demoCallHear).map demoGatewayCall

theorem demoGateway_ok : GatewayOk demoGateway := ⟨demoLink_ok (demoEnd_digest _ _) 0 _, demoLink_ok (demoEnd_digest _ _) 0 _, demoTarget_good⟩

/-- Non-vacuity (C107): the client logs in, the proxy logs in at the target and then passes on messages in both
directions. -/
example : GatewayOk demoGateway ∧
    (({} : Gateway (Nat × List Bytes) (Nat × List Bytes)).run demoGateway demoGatewayEvents).map (fun s =>
      (s.server.live && s.caller.live && s.server.auth.outgoing && decide (.loggedIn ∈ s.caller.login.log) &&
        (logins s.server.auth.log).any (fun l => l.user == ascii "joe") &&
        decide ((connectionSent s.caller.trans.posts).drop 1 = [demoVisit.getD 2 [], [98, 1]]) &&
        decide (connectionSent s.server.trans.posts = [[91, 7], [94, 8]]),
       (packetsSent s.caller.trans.posts).map (·.headD 0), (packetsSent s.server.trans.posts).map (·.headD 0))) =
      some (true, [20, 30, 21, 5, 50, 80, 90, 98, 3], [20, 31, 21, 6, 52, 3, 91, 94]) :=
  ⟨demoGateway_ok, by decide +kernel⟩

/-- The connection to the target breaks: the client's is ended with DISCONNECT. -/
example : (({} : Gateway (Nat × List Bytes) (Nat × List Bytes)).run demoGateway (demoGatewayEvents ++ [.lost])).map (fun s =>
      (s.server.live, s.caller.live, (packetsSent s.server.trans.posts).map (·.headD 0))) =
      some (false, false, [20, 31, 21, 6, 52, 3, 91, 94, 1]) := by decide +kernel

end Lukko
