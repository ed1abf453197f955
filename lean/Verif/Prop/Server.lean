import Verif.Proof.ServerRun
import Verif.Prop.Transport
import Verif.Prop.Authentic
import Verif.Prop.Messages
/-
  C93: the server as a whole – the transport layer and the authentication on top of it.
-/
namespace Lukko
open Model Spec

variable {σ : Type} {x : ServerEnv σ}

theorem SInv.of_run (hx : EnvOk x.trans) {evs : List ServerEvent} {s : Server σ}
    (h : ({} : Server σ).run x evs = some s) : SInv x s := by
  obtain ⟨s', h1, h2⟩ := (SInv.init x).run (evs := evs) hx
  rw [h] at h1
  cases h1
  exact h2

theorem serialized_builds {m : Except SerError Ser} {number : UInt8} {body : Bytes} {e : SerError} (h : Builds m number body e) :
    serialized m = if (number :: body).length ≤ 65531 then some (number :: body) else none := by
  unfold Builds at h
  have hb : BUFFER_SIZE = 65536 := rfl
  rw [h]
  simp only [List.length_cons]
  by_cases hs : 6 + body.length ≤ BUFFER_SIZE
  · rw [if_pos hs, if_pos (by omega)]
    rfl
  · rw [if_neg hs, if_neg (by omega)]
    rfl

theorem answer_message {e : AuthEntry} {p : Bytes} :
    authAnswer e = some p ↔ (∃ r, e = .disconnected r) ∧ p = [1] ∨
      e.message? = some p ∧ ((∃ n q, e = .toClient n q) ∨ p.length ≤ 65531) := by
  have hopt : ∀ m : Bytes, ((if m.length ≤ 65531 then some m else none) = some p) ↔ (m = p ∧ p.length ≤ 65531) := by
    intro m
    by_cases h : m.length ≤ 65531
    · rw [if_pos h, Option.some.injEq]
      exact ⟨fun hm => ⟨hm, hm ▸ h⟩, And.left⟩
    · rw [if_neg h]
      exact ⟨fun hm => (by cases hm), fun hm => absurd hm.2 (hm.1 ▸ h)⟩
  cases e <;> simp only [authAnswer, AuthEntry.message?, reduceCtorEq, exists_false, false_and, false_or, or_false]
  case serviceAccepted name =>
    rw [serialized_builds (m := makeServiceAccept name) (number := 6) (body := str name) (e := .terminate)
      (Writes.noexcept_begin (Writes.str _) 6), hopt, Option.some.injEq]
  case failure methods =>
    rw [serialized_builds (m := makeUserauthFailure methods false) (number := 51) (body := str methods ++ Spec.bool false) (e := .terminate)
      (Writes.noexcept_begin ((Writes.str _).bind (Writes.bool _)) 51), hopt, Option.some.injEq]
  case keyOk alg key =>
    rw [serialized_builds (m := makeUserauthPkOk alg key) (number := 60) (body := str alg ++ str key) (e := .terminate)
      (Writes.noexcept_begin ((Writes.str _).bind (Writes.str _)) 60), hopt, Option.some.injEq]
  case success =>
    simp only [Option.some.injEq]
    constructor
    · rintro rfl; exact ⟨rfl, by decide⟩
    · rintro ⟨rfl, _⟩; rfl
  case toClient n q =>
    simp only [Option.some.injEq, AuthEntry.toClient.injEq]
    exact ⟨fun h => ⟨h, .inl ⟨n, q, rfl, rfl⟩⟩, And.left⟩
  case disconnected r =>
    simp only [Option.some.injEq, AuthEntry.disconnected.injEq, exists_eq', true_and]
    exact ⟨fun h => h.symm, fun h => h.symm⟩

theorem filterMap_sublist {α β : Type} {f g : α → Option β} (h : ∀ a b, f a = some b → g a = some b) :
    ∀ l : List α, (l.filterMap f).Sublist (l.filterMap g)
  | [] => .slnil
  | a :: l => by
    cases hf : f a with
    | none =>
      rw [List.filterMap_cons_none hf]
      cases hg : g a with
      | none => rw [List.filterMap_cons_none hg]; exact filterMap_sublist h l
      | some b => rw [List.filterMap_cons_some hg]; exact (filterMap_sublist h l).cons _
    | some b =>
      rw [List.filterMap_cons_some hf, List.filterMap_cons_some (h a b hf)]
      exact (filterMap_sublist h l).cons_cons _

/-! ## C93 -/

/-- **C93.** Whatever happens on a connection, in whatever order, none of the assertions which the layers make
about each other fails. -/
theorem C93_no_assertion_fails (hx : EnvOk x.trans) (evs : List ServerEvent) : (({} : Server σ).run x evs).isSome := by
  obtain ⟨s', h1, _⟩ := (SInv.init x).run (evs := evs) hx
  rw [h1]; rfl

/-- **C93.** The messages which the server acts upon are packets which were received encrypted: all of them, in
the order of their arrival, as long as the connection exists. -/
theorem C93_requests (hx : EnvOk x.trans) {evs : List ServerEvent} {s : Server σ} (h : ({} : Server σ).run x evs = some s) :
    clientMessages s.auth.log <+: receivedEncrypted s.trans.kx.kx.log ∧
    (s.live = true → clientMessages s.auth.log = receivedEncrypted s.trans.kx.kx.log) :=
  ⟨(SInv.of_run hx h).recv, (SInv.of_run hx h).recvEq⟩

/-- **C93.** Nothing but messages of the transport layer is ever sent unencrypted. -/
theorem C93_clear (hx : EnvOk x.trans) {evs : List ServerEvent} {s : Server σ} (h : ({} : Server σ).run x evs = some s) :
    ∀ p ∈ postsOfEpoch s.trans.posts, IsTransportMessage p :=
  (SInv.of_run hx h).clear

/-- **C93.** The client is told about everything that concerns it, in this order: as long as the connection exists,
all these messages are sent. -/
theorem C93_answers (hx : EnvOk x.trans) {evs : List ServerEvent} {s : Server σ} (h : ({} : Server σ).run x evs = some s)
    (hl : s.live = true) :
    ((s.auth.log.filterMap AuthEntry.message?).filter fun p => p.length ≤ 65531).Sublist (packetsSent s.trans.posts) := by
  refine List.Sublist.trans ?_ ((SInv.of_run hx h).answers (Server.live_iff.mp hl).1)
  rw [List.filter_filterMap]
  refine filterMap_sublist (fun e p he => ?_) _
  obtain ⟨he, hp⟩ := Option.filter_eq_some_iff.mp he
  exact answer_message.mpr (.inr ⟨he, .inr (of_decide_eq_true hp)⟩)

/-- **C93.** Before a login, nothing is sent but messages of the transport layer and of the authentication (numbers
below 80), and USERAUTH_SUCCESS is not one of them. -/
theorem C93_before_login (hx : EnvOk x.trans) {evs : List ServerEvent} {s : Server σ} (h : ({} : Server σ).run x evs = some s)
    (hn : ∀ l, .loggedIn l ∉ s.auth.log) :
    ∀ p ∈ packetsSent s.trans.posts, ∃ m rest, p = m :: rest ∧ m < 80 ∧ m ≠ 52 := by
  have hi := SInv.of_run hx h
  obtain ⟨aevs, ha⟩ := hi.auth
  have hs : .success ∉ s.auth.log := by
    intro hs
    obtain ⟨a, b, hab⟩ := List.append_of_mem hs
    obtain ⟨l, hl⟩ := C30_success (s.cfg x) aevs (by rw [← ha]; exact hab)
    exact hn l (by rw [hab]; exact List.mem_append_left _ hl)
  have hc : s.auth.channels = false := by
    rw [ha] at hs ⊢
    exact (no_success hs).1
  intro p hp
  rcases hi.upper hc p hp with ⟨m, r, rfl, hm⟩ | hp
  · exact ⟨m, r, rfl, by have := UInt8.lt_iff_toNat_lt.mp hm; rw [UInt8.lt_iff_toNat_lt]; exact Nat.lt_trans this (by decide),
      fun h52 => by subst h52; exact absurd hm (by decide)⟩
  · obtain ⟨e, he, hp⟩ := List.mem_filterMap.mp hp
    rcases answer_message.mp hp with ⟨_, rfl⟩ | ⟨hp, _⟩
    · exact ⟨1, [], rfl, by decide, by decide⟩
    · cases e <;> simp only [AuthEntry.message?, reduceCtorEq, Option.some.injEq] at hp <;> subst hp
      · exact ⟨6, _, rfl, by decide, by decide⟩
      · exact ⟨51, _, rfl, by decide, by decide⟩
      · exact ⟨60, _, rfl, by decide, by decide⟩
      · exact absurd he hs
      · obtain ⟨a, b, hab⟩ := List.append_of_mem he
        have := (C29_effects (s.cfg x) aevs (by rw [← ha]; exact hab) rfl).1
        exact absurd (by rw [hab]; exact List.mem_append_left _ this) hs

/-- **C93.** A login is justified by what happened on this connection before: signatures are checked with the
hash of the first key exchange of this connection, and the requests were received encrypted. -/
theorem C93_login (hx : EnvOk x.trans) {evs : List ServerEvent} {s : Server σ} (h : ({} : Server σ).run x evs = some s)
    {a b : List AuthEntry} {l : Login} (hl : s.auth.log = a ++ .loggedIn l :: b) :
    ∃ t, firstAgreed s.trans.kx.kx.log = some t ∧
      Justified { x.auth.world with sessionId := x.trans.kex.digest (hashInput t) } a l ∧
      clientMessages a <+: receivedEncrypted s.trans.kx.kx.log := by
  have hi := SInv.of_run hx h
  obtain ⟨aevs, ha⟩ := hi.auth
  obtain ⟨kevs, hk, hkx⟩ := hi.fit.kx
  have hj := C30_sound (s.cfg x) aevs (a := a) (b := b) (l := l) (by rw [← ha]; exact hl)
  have hsid := C14_first_hash (role := .server) hx.digest hk
  rw [← hkx] at hsid
  cases hf : firstAgreed s.trans.kx.kx.log with
  | none =>
    exfalso
    have he : s.auth.encrypted = true := by
      cases he : s.auth.encrypted with
      | true => rfl
      | false =>
        have : AuthEntry.loggedIn l ∈ s.auth.log := by rw [hl]; simp
        rcases hi.early he with he | he | he <;> (rw [he] at this; simp [Auth.disconnect, Auth.close] at this)
    rw [hi.enc, hi.told, List.contains_iff_mem, hkx] at he
    obtain ⟨t, ht⟩ := firstAgreed_of_encrypted hx.digest hk he
    rw [← hkx, hf] at ht
    cases ht
  | some t =>
    rw [hf] at hsid
    refine ⟨t, rfl, ?_, ?_⟩
    · have : { x.auth.world with sessionId := x.trans.kex.digest (hashInput t) } = (s.cfg x).world := by
        simp only [Server.cfg, AuthCfg.world, hsid]
      rw [this]
      exact hj
    · refine List.IsPrefix.trans ?_ hi.recv
      rw [hl, clientMessages_append]
      exact List.prefix_append _ _

/-! ### A connection -/

/-- The encrypted packets of the client: it asks for the service, logs in with its key, opens a session. -/
def demoVisit : List Bytes :=
  [5 :: str (ascii "ssh-userauth"),
   50 :: (demoPairRequest ++ str ([8] ++ signedBytes demoPairAuth.sessionId demoPairRequest)),
   90 :: (str (ascii "session") ++ (u32 0 ++ (u32 1000 ++ u32 1000)))]

def demoHouse : ServerEnv (Nat × List Bytes) := { trans := demoLink demoEndS 0 demoVisit, auth := demoAuth }

/-- The network below, the packets one by one. -/
def demoArrive : List ServerEvent :=
  .io (.version (ascii "SSH-2.0-client")) ::
    ([20 :: (lastSent 20 (demoEndClient demoPairC)).getD [], 30 :: (lastSent 30 (demoEndClient demoPairC)).getD [], [21]].flatMap fun p =>
      [.io (.feed (demoFrame p)), .ready false])

def demoKnock (p : Bytes) : List ServerEvent :=
  [.io (.feed (demoSealed p)), .io (.inBegin 10000), .io .inLoop, .io .inLoop, .io (.inEnd 0), .ready false]

def demoStay : List ServerEvent :=
  demoArrive ++ (demoVisit.flatMap demoKnock).take 12 ++ [.other (.translated (some {}))] ++
    (demoVisit.flatMap demoKnock).drop 12 ++ [.send [91, 0]]

theorem demoHouse_ok : EnvOk demoHouse.trans := demoLink_ok (demoEnd_digest _ _) 0 _

/-- Non-vacuity (C93): the three packets arrive, the client is logged in and opens a session; it is told about that. -/
example : EnvOk demoHouse.trans ∧
    (({} : Server (Nat × List Bytes)).run demoHouse demoStay).map (fun s =>
      (s.live && decide (clientMessages s.auth.log = demoVisit) && decide (.openSession ∈ s.auth.log),
       (logins s.auth.log).map (·.method),
       (packetsSent s.trans.posts).map (·.headD 0), (postsOfEpoch s.trans.posts).map (·.headD 0))) =
      some (true, [ascii "publickey"], [20, 31, 21, 6, 52, 91], [20, 31, 21]) :=
  ⟨demoHouse_ok, by decide +kernel⟩

/-- Before the answer about the account, only these. -/
example : (({} : Server (Nat × List Bytes)).run demoHouse (demoStay.take 19)).map (fun s =>
      (s.live && (logins s.auth.log).isEmpty, clientMessages s.auth.log == demoVisit.take 2,
       (packetsSent s.trans.posts).map (·.headD 0))) = some (true, true, [20, 31, 21, 6]) := by decide +kernel

end Lukko
