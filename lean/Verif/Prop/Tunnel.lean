import Verif.Proof.Tunnel
import Verif.Prop.Host
import Verif.Prop.Relay
/-
  C105: the server with its forwarded connections – from the packets of the client to the host, and back.
-/
namespace Lukko
open Model Spec

variable {σ : Type} {x : HubEnv σ}

theorem HubInv.of_run (hx : EnvOk x.server.trans) {evs : List HubEvent} {h : Hub σ}
    (hr : ({} : Hub σ).run x evs = some h) : HubInv x h := by
  obtain ⟨h', h1, h2⟩ := HubInv.run (x := x) hx evs HubInv.init
  rw [hr] at h1
  cases h1
  exact h2

theorem hub_server {evs : List HubEvent} : ∀ {h h' : Hub σ}, h.run x evs = some h' →
    ∃ sevs, h.server.run x.server sevs = some h'.server := by
  have settled : ∀ {s old new} {h' : Hub σ}, Hub.settle x s old new = some h' → ∃ sevs, s.run x.server sevs = some h'.server := by
    intro s old new h' h
    obtain ⟨s', h1, rfl⟩ := Option.map_eq_some_iff.mp h
    exact ⟨_, h1⟩
  induction evs with
  | nil => intro h h' hr; cases hr; exact ⟨[], rfl⟩
  | cons ev evs ih =>
    intro h h' hr
    obtain ⟨h₁, h1, h2⟩ := Option.bind_eq_some_iff.mp hr
    obtain ⟨b, hb⟩ := ih h2
    have ha : ∃ a, h.server.run x.server a = some h₁.server := by
      cases ev with
      | server ev c =>
        obtain ⟨s, g1, g2⟩ := Option.bind_eq_some_iff.mp h1
        obtain ⟨a, ha⟩ := settled g2
        exact ⟨ev :: a, by simp only [Server.run, g1, Option.bind_some, ha]⟩
      | _ => exact settled h1
    obtain ⟨a, ha⟩ := ha
    exact ⟨a ++ b, by rw [Server.run_append, ha, Option.bind_some, hb]⟩

/-- **C105.** No assertion fails, with any number of forwarded connections. -/
theorem C105_no_assertion_fails (hx : EnvOk x.server.trans) (evs : List HubEvent) : (({} : Hub σ).run x evs).isSome := by
  obtain ⟨h', h1, _⟩ := HubInv.run (x := x) hx evs HubInv.init
  rw [h1]; rfl

/-- **C105.** Below the forwarded connections is a connection as in C93 and C94, to which all that is said there applies. -/
theorem C105_connection {evs : List HubEvent} {h : Hub σ} (hr : ({} : Hub σ).run x evs = some h) :
    ∃ sevs, ({} : Server σ).run x.server sevs = some h.server := hub_server hr

/-- **C105.** Every forwarded connection was asked for by the client, with a CHANNEL_OPEN message which names exactly this target,
after a login which allows programs to be executed; for a TCP connection, the restrictions in effect then do not forbid it and
the account does not have its own network. -/
theorem C105_asked (hx : EnvOk x.server.trans) {evs : List HubEvent} {h : Hub σ} (hr : ({} : Hub σ).run x evs = some h)
    {t : Tunnel} (ht : t ∈ h.tunnels) :
    ∃ pre type size rest post, Asks type rest t.target ∧
      h.server.auth.log = pre ++ [.received 90 (channelOpenBody type t.peer t.window size rest), t.target] ++ post ∧
      (∃ l, .loggedIn l ∈ pre ∧ l.exec = true) ∧
      (∀ host port, t.target = .connectTcp host port → (∃ r, inEffect pre = some r ∧ r.noForwarding = false) ∧
        ∀ u p acct, lastAccount pre = some (u, p, acct) → acct.shell = true → acct.ownNetwork = false) := by
  have hi := HubInv.of_run hx hr
  obtain ⟨pre, post, hk⟩ := hi.ok t ht
  obtain ⟨type, m, rest, ha, hlog⟩ := hk.opened
  obtain ⟨aevs, hae⟩ := hi.server.auth
  have hpos : (Auth.run (h.server.cfg x.server) {} aevs).log =
      (pre ++ [.received 90 (channelOpenBody type t.peer t.window m rest)]) ++ t.target :: post := by
    rw [← hae, hlog]; simp
  have hlogin : ∀ {l}, AuthEntry.loggedIn l ∈ pre ++ [.received 90 (channelOpenBody type t.peer t.window m rest)] → .loggedIn l ∈ pre := by
    intro l hl; simpa using hl
  have heff := inEffect_snoc pre (.received 90 (channelOpenBody type t.peer t.window m rest))
  refine ⟨pre, type, m, rest, post, ha, hlog, ?_, fun host port hc => ?_⟩
  · rcases asks_what ha with ⟨host, port, hc⟩ | ⟨path, hc⟩
    · obtain ⟨⟨l, h1, h2⟩, _⟩ := C39_tcp_partial _ aevs (e := t.target) (.inl hc) hpos
      exact ⟨l, hlogin h1, h2⟩
    · rw [hc] at hpos
      obtain ⟨l, h1, h2⟩ := C39_local_partial _ aevs hpos
      exact ⟨l, hlogin h1, h2⟩
  · obtain ⟨_, ⟨r, h1, h2⟩, h3⟩ := C39_tcp_partial _ aevs (e := t.target) (.inl hc) hpos
    refine ⟨⟨r, heff.symm.trans h1, h2⟩, fun u p acct hu hs => ?_⟩
    refine h3 u p acct ?_ hs
    rw [← hu]
    simp [lastAccount]

/-- **C105.** Two forwarded connections which are open at the same time have different numbers: no message reaches two of them. -/
theorem C105_distinct (hx : EnvOk x.server.trans) {evs : List HubEvent} {h : Hub σ} (hr : ({} : Hub σ).run x evs = some h) :
    h.tunnels.Pairwise fun a b => a.isOpen = true → b.isOpen = true → a.number ≠ b.number :=
  (HubInv.of_run hx hr).apart

theorem clientSaid_filter (log : List RelayEntry) : clientSaid (log.filter RelayEntry.byClient) = clientSaid log := by
  induction log with
  | nil => rfl
  | cons e log ih =>
    have hc : ∀ l, clientSaid (e :: l) = e.clientPart ++ clientSaid l := fun _ => rfl
    cases hb : e.byClient with
    | true => rw [List.filter_cons_of_pos hb, hc, hc, ih]
    | false =>
      rw [List.filter_cons_of_neg (by rw [hb]; nofun), hc, ih]
      cases e <;> first | rfl | cases hb

/-- **C105.** What the host receives is the beginning of what the client has sent to the channel with this number since the channel
was opened: nothing is invented, repeated, left out or reordered, and nothing comes from another channel. As long as the
forwarded connection is alive, all of the client's messages are taken into account; and the host is told that nothing more
will come only after the client has said so, when it has received everything the client has sent. -/
theorem C105_to_host (hx : EnvOk x.server.trans) {evs : List HubEvent} {h : Hub σ} (hr : ({} : Hub σ).run x evs = some h)
    {t : Tunnel} (ht : t ∈ h.tunnels) (hw : 0 < t.window) {r : Relay} (hl : t.relay = some r) :
    ∃ pre type size rest mid post ms es, h.server.auth.log =
        pre ++ [.received 90 (channelOpenBody type t.peer t.window size rest), t.target] ++ (mid ++ post) ∧
      ms <+: clientMessages post ∧ (r.ch.stop = none → ms = clientMessages post) ∧ Forwarded t.number ms es ∧
      hostHeard r.log <+: clientSaid es ∧
      (RelayEntry.endToHost ∈ r.log → RelayEntry.clientEnds ∈ es ∧
        ∃ a b, es = a ++ b ∧ RelayEntry.clientEnds ∈ a ∧ clientSaid a <+: hostHeard r.log) := by
  obtain ⟨pre, post, hk⟩ := (HubInv.of_run hx hr).ok t ht
  obtain ⟨type, m, rest, ha, hlog⟩ := hk.opened
  obtain ⟨mid, post', hp, hv⟩ := hk.live r hl
  obtain ⟨ms, m1, m2, m3⟩ := hv.said hw
  obtain ⟨revs, hrun⟩ := hv.isRun
  refine ⟨pre, type, m, rest, mid, post', ms, _, by rw [hlog, hp], m1, m3, m2, ?_, fun he => ?_⟩
  · rw [clientSaid_filter, hrun]
    exact C103_to_host x.ndebug hw revs
  · obtain ⟨a, b, hab⟩ := List.append_of_mem he
    obtain ⟨h1, h2⟩ := C103_end_to_host x.ndebug hw revs a b (by rw [← hrun]; exact hab)
    refine ⟨List.mem_filter.mpr ⟨by rw [hab]; exact List.mem_append_left _ h1, rfl⟩,
      a.filter RelayEntry.byClient, (RelayEntry.endToHost :: b).filter RelayEntry.byClient, ?_, List.mem_filter.mpr ⟨h1, rfl⟩, ?_⟩
    · rw [hab, List.filter_append]
    · rw [clientSaid_filter, ← h2, hab]
      simp only [hostHeard, List.flatMap_append]
      exact List.prefix_append _ _

theorem relay_message {peer : Nat} {e : RelayEntry} (hs : ∀ bs, e = .toClient bs → bs.length ≤ 4096) :
    relayMessage peer e = e.message? peer := by
  have hopt : ∀ {m : Except SerError Ser} {n : UInt8} {body : Bytes} {err : SerError}, Builds m n body err → (n :: body).length ≤ 65531 →
      serialized m = some (n :: body) := by
    intro m n body err hb he
    rw [serialized_builds hb, if_pos he]
  cases e with
  | toClient bs =>
    have := hs bs rfl
    exact hopt (Writes.begin ((Writes.u32 _).bind (Writes.str _)) MSG_CHANNEL_DATA) (by simp [channelDataBody, str]; omega)
  | closes => exact hopt (Writes.noexcept_begin (Writes.u32 _) MSG_CHANNEL_CLOSE) (by simp)
  | _ => rfl

theorem filterMap_ext {α β : Type} {f g : α → Option β} {l : List α} (h : ∀ e ∈ l, f e = g e) : l.filterMap f = l.filterMap g := by
  induction l with
  | nil => rfl
  | cons e l ih =>
    rw [List.filterMap_cons, List.filterMap_cons, h e (by simp), ih fun e he => h e (by simp [he])]

/-- **C105.** The client is told, with the number which it has given to the channel, that the connection is established, and then
everything which was passed on to it, in this order, and finally that the channel is closed; and what was passed on is the
beginning of what the host has sent. -/
theorem C105_to_client (hx : EnvOk x.server.trans) {evs : List HubEvent} {h : Hub σ} (hr : ({} : Hub σ).run x evs = some h)
    (hlive : h.server.live = true) {t : Tunnel} (ht : t ∈ h.tunnels) (hw : 0 < t.window) {r : Relay} (hl : t.relay = some r) :
    ((91 :: channelOpenConfirmationBody t.peer t.number 1048576 32768 []) ::
        r.log.filterMap (RelayEntry.message? t.peer)).Sublist (packetsSent h.server.trans.posts) ∧
    clientHeard r.log <+: hostSaid r.log := by
  have hi := HubInv.of_run hx hr
  obtain ⟨pre, post, hk⟩ := hi.ok t ht
  obtain ⟨mid, post', hp, hv⟩ := hk.live r hl
  obtain ⟨revs, hrun⟩ := hv.isRun
  refine ⟨?_, by rw [hrun]; exact (C103_to_client x.ndebug hw revs).1⟩
  have hsm := relay_small x.ndebug t.window revs
  rw [← hrun] at hsm
  have : r.log.filterMap (RelayEntry.message? t.peer) = r.log.filterMap (relayMessage t.peer) :=
    filterMap_ext fun e he => (relay_message fun bs hb => hsm.pieces bs (hb ▸ he)).symm
  rw [this]
  exact hv.out.trans (hi.sent hlive t ht)

/-- **C105.** If the server closes the channel, and neither has the client closed it nor the host aborted the
connection, then everything the host has sent was sent to the client before (see C103 for the assumption about `recv()`, which is
stated here for the events of this connection). -/
theorem C105_complete (hx : EnvOk x.server.trans) {evs : List HubEvent} {h : Hub σ} (hr : ({} : Hub σ).run x evs = some h)
    {t : Tunnel} (ht : t ∈ h.tunnels) (hw : 0 < t.window) {r : Relay} (hl : t.relay = some r) :
    ∃ revs, r = Relay.run x.ndebug (Relay.init t.window) revs ∧
      ((∀ e ∈ revs, e.full = true) → RelayEntry.closes ∈ r.log → RelayEntry.resets ∉ r.log → RelayEntry.clientCloses ∉ r.log →
        RelayEntry.hostEnds ∈ r.log ∧ clientHeard r.log = hostSaid r.log) := by
  obtain ⟨pre, post, hk⟩ := (HubInv.of_run hx hr).ok t ht
  obtain ⟨mid, post', hp, hv⟩ := hk.live r hl
  obtain ⟨revs, hrun⟩ := hv.isRun
  refine ⟨revs, hrun, fun hf h1 h2 h3 => ?_⟩
  rw [hrun] at h1 h2 h3 ⊢
  exact C103_complete x.ndebug hw revs hf h1 h2 h3

theorem Spec.Forwarded.mem {n : Nat} {ms : List Bytes} {es : List RelayEntry} (h : Forwarded n ms es) {e} (he : e ∈ es) :
    ∃ m ∈ ms, Passed n m e := by
  induction h with
  | nil => cases he
  | passed _ hh ih =>
    rcases List.mem_append.mp he with he | he
    · obtain ⟨m, h1, h2⟩ := ih he
      exact ⟨m, by simp [h1], h2⟩
    · rw [List.mem_singleton] at he
      subst he
      exact ⟨_, by simp, hh⟩
  | other _ _ ih =>
    obtain ⟨m, h1, h2⟩ := ih he
    exact ⟨m, by simp [h1], h2⟩

/-- **C105.** After a login with a signature, every forwarded connection was asked for, and everything which was passed on to
a host was sent, by the holder of the key, in the sense of C94. -/
theorem C105_holder {ι : Type} (conn : ι → ClientSide) (hconn : ∀ j, (conn j).Proper) (hx : EnvOk x.server.trans)
    (hv : x.server.trans.kex.ownVersion.length < 2 ^ 32) {evs : List HubEvent} {h : Hub σ}
    (hr : ({} : Hub σ).run x evs = some h) (hz : Sized h.server.trans.kx.kx.log)
    (hA : ∀ j pre enc mac keys post tr, h.server.trans.kx.kx.log = pre ++ .installIn enc mac keys :: post → lastAgreed pre = some tr →
      (conn j).ephemeral tr.clientEph →
      AcceptsOnly x.server.trans.ops (x.server.trans.makeCipher .incoming enc mac keys) 0 ((conn j).sent enc mac keys))
    {l : Login} (hl : .loggedIn l ∈ h.server.auth.log) (hm : l.method = ascii "publickey" ∨ l.method = ascii "hostbased") :
    ∃ t key f, firstAgreed h.server.trans.kx.kx.log = some t ∧ RequestFor l.method f key ∧
      (UserForgery (fun m sig => x.server.auth.verify key m sig = some true) x.server.trans.kex.digest
          (fun t' r => ∃ j, (conn j).first = t' ∧ (conn j).signs key r) ∨
       (∃ j, Collision x.server.trans.kex.digest t (conn j).first) ∨
       ∃ j, (conn j).first = t ∧ (conn j).signs key (authRequest l.user l.method f) ∧
        ∀ u ∈ h.tunnels,
          (∃ type size rest enc mac keys, Asks type rest u.target ∧
            (90 :: channelOpenBody type u.peer u.window size rest) ∈ (conn j).sent enc mac keys) ∧
          (0 < u.window → ∀ r, u.relay = some r → ∀ e ∈ r.log, e.byClient = true → ∃ enc mac keys p,
            p ∈ (conn j).sent enc mac keys ∧ Passed u.number p e)) := by
  obtain ⟨sevs, hsr⟩ := C105_connection hr
  obtain ⟨t, hk, key, f, h1, _, h3, h4⟩ := C94_holder conn hconn hx hv hsr hz hA hl hm
  refine ⟨t, key, f, h1, h3, ?_⟩
  rcases h4 with h4 | h4 | ⟨j, h4, h5, _, h6⟩
  · exact .inl h4
  · exact .inr (.inl h4)
  · refine .inr (.inr ⟨j, h4, h5, fun u hu => ?_⟩)
    obtain ⟨pre, post, hk⟩ := (HubInv.of_run hx hr).ok u hu
    obtain ⟨type, m, rest, ha, hlog⟩ := hk.opened
    constructor
    · obtain ⟨_, enc, mac, keys, _, _, hq⟩ := h6 (90 :: channelOpenBody type u.peer u.window m rest) (by
        rw [hlog, clientMessages_append, clientMessages_append]
        refine List.mem_append_left _ (List.mem_append_right _ ?_)
        simp [clientMessages])
      exact ⟨type, m, rest, enc, mac, keys, ha, hq⟩
    · intro hw r hrr e he hb
      obtain ⟨mid, post', hp, hv⟩ := hk.live r hrr
      obtain ⟨ms, m1, m2, _⟩ := hv.said hw
      obtain ⟨p, hp', hh⟩ := m2.mem (List.mem_filter.mpr ⟨he, hb⟩)
      obtain ⟨_, enc, mac, keys, _, _, hq⟩ := h6 p (by
        rw [hlog, hp, clientMessages_append, clientMessages_append (a := mid)]
        exact List.mem_append_right _ (List.mem_append_right _ (m1.subset hp')))
      exact ⟨enc, mac, keys, p, hq, hh⟩

/-! ### Non-vacuity -/

/-- The client logs in as in the example for C93 and asks for a connection; it sends something to the host, something to another
channel, and then end-of-file. -/
def demoErrand : List Bytes := demoVisit.take 2 ++
  [90 :: channelOpenBody (ascii "direct-tcpip") 5 1000 1000 (str (ascii "db") ++ (u32 80 ++ (str (ascii "me") ++ u32 9))),
   94 :: channelDataBody 0 [1, 2, 3],
   94 :: channelDataBody 1 [4],
   96 :: channelBody 0]

def demoPort : HubEnv (Nat × List Bytes) where
  server := { trans := demoLink demoEndS 0 demoErrand, auth := demoAuth }
  ndebug := false

theorem demoPort_ok : EnvOk demoPort.server.trans := demoLink_ok (demoEnd_digest _ _) 0 _

def demoPass (c : Chance) (p : Bytes) : List HubEvent := (demoKnock p).map fun ev => .server ev c

/-- The connection is established; both sides send something; the host ends its side. -/
def demoRound : List HubEvent :=
  (demoArrive ++ (demoVisit.flatMap demoKnock).take 12 ++ [ServerEvent.other (.translated (some {}))]).map (fun ev => .server ev { number := 0 }) ++
  demoPass { number := 0 } (demoErrand.getD 2 []) ++
  [.connected 0] ++
  ((demoErrand.drop 3).flatMap (demoPass { number := 0, wrote := .wrote 2 })) ++
  [.relay 0 (.hostSends [7, 8]), .relay 0 (.ready (some [(1, .wrote 1)]) true 0 false), .relay 0 .hostEnds,
   .relay 0 (.ready none true 0 true)]

/-- Non-vacuity (C105): all of this happens, on a connection which still exists. -/
example : EnvOk demoPort.server.trans ∧
    (({} : Hub (Nat × List Bytes)).run demoPort demoRound).map (fun h =>
      (h.server.live && decide (clientMessages h.server.auth.log = demoErrand),
       (h.tunnels.map fun t => (t.number, decide (t.window = 1000) && decide (t.target = .connectTcp (ascii "db") 80) && t.relay.any fun r => decide (r.log =
         [.client [1, 2, 3], .toHost [1, 2], .clientEnds, .host [7, 8], .toHost [3], .endToHost, .toClient [7, 8], .hostEnds, .closes]))),
       (packetsSent h.server.trans.posts).drop 5)) =
      some (true, [(0, true)],
        [91 :: channelOpenConfirmationBody 5 0 1048576 32768 [], 94 :: channelDataBody 5 [7, 8], 97 :: channelBody 5]) :=
  ⟨demoPort_ok, by decide +kernel⟩

def demoErrander (t : Transcript) : ClientSide := { demoGuest t with sent := fun _ _ _ => demoErrand }

theorem demoErrand_number : ∀ p ∈ demoErrand, p.head? ≠ some 30 := by decide +kernel

theorem demoErrander_proper {t : Transcript} (h : Transcript.Encodable t) (h' : AnnouncesStrict t.clientKexinit) :
    (demoErrander t).Proper where
  encodable := h
  own := rfl
  later := fun _ _ _ _ h => absurd rfl (demoErrand_number _ h)
  strict := h'

/-- Non-vacuity (`C105_holder`): the login is one with a signature; the client is the one of the example. -/
example : (demoErrander demoFirst).Proper ∧
    (({} : Hub (Nat × List Bytes)).run demoPort demoRound).map (fun h =>
      (decide (Sized h.server.trans.kx.kx.log) && decide (firstAgreed h.server.trans.kx.kx.log = some demoFirst),
       (logins h.server.auth.log).map (·.method))) = some (true, [ascii "publickey"]) ∧
    ∀ t enc mac keys, AcceptsOnly ticket (demoPort.server.trans.makeCipher .incoming enc mac keys) 0 ((demoErrander t).sent enc mac keys) :=
  ⟨demoErrander_proper demoFirst_encodable demoFirst_strict, by decide +kernel, fun _ _ _ _ => demoLink_accepts 0 (by decide)⟩

/-- Connections to other targets: a socket, and a second connection at the same time; a host which cannot be reached. -/
example :
    (openTunnel { number := 1 } (channelOpenBody (ascii "direct-streamlocal@openssh.com") 7 100 100 (str (ascii "/s") ++ []))
      (.connectLocal (ascii "/s")) [{ number := 0, peer := 3, window := 1, target := .connectTcp [] 1 }]).map (fun t => (t.peer, t.number)) =
      [(3, 0), (7, 1)] ∧
    ({ number := 0, peer := 3, window := 1, target := .connectTcp [] 1 } : Tunnel).connected.isOpen = true ∧
    (({ number := 0, peer := 3, window := 1, target := .connectTcp [] 1 } : Tunnel).failed [65]).isOpen = false ∧
    (({ number := 0, peer := 3, window := 1, target := .connectTcp [] 1 } : Tunnel).failed [65]).out =
      [92 :: (u32 3 ++ (u32 2 ++ (str [65] ++ str (ascii "en"))))] := by decide +kernel

end Lukko
