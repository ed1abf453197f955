import Verif.Proof.Reverse
import Verif.Prop.Tunnel
import Verif.Prop.Listeners
/-
  C110: the server with remote forwardings – from the client's request to the connections which arrive, and back.
-/
namespace Lukko
open Model Spec

variable {σ : Type} {x : HubEnv σ}

theorem DInv.of_run (hx : EnvOk x.server.trans) {evs : List DeskEvent} {h : Desk σ}
    (hr : ({} : Desk σ).run x evs = some h) : DInv x h := by
  obtain ⟨h', h1, h2⟩ := DInv.run (x := x) hx evs DInv.init
  rw [hr] at h1
  cases h1
  exact h2

theorem DInv.hist {h : Desk σ} (hi : DInv x h) : FwHist h.board.fw.log := by
  cases hl : h.server.live with
  | true => exact (hi.core hl).hist
  | false => exact (hi.over hl).hist

theorem DInv.asked {h : Desk σ} (hi : DInv x h) : ∀ n host port, .asked n host port ∈ h.board.fw.log → .bindTcp host port ∈ h.server.auth.log := by
  cases hl : h.server.live with
  | true => exact (hi.core hl).asked
  | false => exact (hi.over hl).asked

theorem desk_server {evs : List DeskEvent} : ∀ {h h' : Desk σ}, h.run x evs = some h' →
    ∃ sevs, h.server.run x.server sevs = some h'.server := by
  have settled : ∀ {h : Desk σ} {s b} {h' : Desk σ}, h.settle x s b = some h' → ∃ sevs, s.run x.server sevs = some h'.server := by
    intro h s b h' hs
    obtain ⟨s', h1, rfl⟩ := Option.map_eq_some_iff.mp hs
    exact ⟨_, h1⟩
  induction evs with
  | nil => intro h h' hr; cases hr; exact ⟨[], rfl⟩
  | cons ev evs ih =>
    intro h h' hr
    obtain ⟨h₁, h1, h2⟩ := Option.bind_eq_some_iff.mp hr
    obtain ⟨b, hb⟩ := ih h2
    have ha : ∃ a, h.server.run x.server a = some h₁.server := by
      cases ev with
      | server ev c =>
        obtain ⟨s, g1, g2⟩ := Option.bind_eq_some_iff.mp h1
        obtain ⟨a, ha⟩ := settled g2
        exact ⟨ev :: a, by simp only [Server.run, g1, Option.bind_some, ha]⟩
      | _ => exact settled h1
    obtain ⟨a, ha⟩ := ha
    exact ⟨a ++ b, by rw [Server.run_append, ha, Option.bind_some, hb]⟩

/-- **C110.** No assertion fails, with any number of forwardings and of connections which arrive. -/
theorem C110_no_assertion_fails (hx : EnvOk x.server.trans) (evs : List DeskEvent) : (({} : Desk σ).run x evs).isSome := by
  obtain ⟨h', h1, _⟩ := DInv.run (x := x) hx evs DInv.init
  rw [h1]; rfl

/-- **C110.** Below the forwardings is a connection as in C93 and C94, to which all that is said there applies. -/
theorem C110_connection {evs : List DeskEvent} {h : Desk σ} (hr : ({} : Desk σ).run x evs = some h) :
    ∃ sevs, ({} : Server σ).run x.server sevs = some h.server := desk_server hr

/-- **C110.** A connection which arrives is offered to the client only with the address of a forwarding which is in effect then; and
the client has asked for this one, with a message which names this address, after a login which allows programs to be executed,
while the restrictions in effect do not forbid forwarding and the account does not have its own network. -/
theorem C110_offered (hx : EnvOk x.server.trans) {evs : List DeskEvent} {h : Desk σ} (hr : ({} : Desk σ).run x evs = some h)
    {c : Incoming} (hc : c ∈ h.board.calls) :
    (∃ a b n, h.board.fw.log = a ++ .offered c.call c.host c.port :: b ∧ (c.host, c.port) ∈ forwardings a ∧
      .asked n c.host c.port ∈ a ∧ .granted n c.host c.port ∈ a) ∧
    ∃ pre m post, h.server.auth.log = pre ++ [.received 80 m, .bindTcp c.host c.port] ++ post ∧ AsksBind m (.bindTcp c.host c.port) ∧
      (∃ l, .loggedIn l ∈ pre ∧ l.exec = true) ∧ (∃ r, inEffect pre = some r ∧ r.noForwarding = false) ∧
      ∀ u p acct, lastAccount pre = some (u, p, acct) → acct.shell = true → acct.ownNetwork = false := by
  have hi := DInv.of_run hx hr
  obtain ⟨a, b, hab⟩ := List.append_of_mem (hi.ok c hc).called
  have hin := (hi.hist _ _ _ hab).1
  obtain ⟨a1, n, a2, ha⟩ := granted_of_mem a [] (by simp) hin
  have hask := (hi.hist a1 (.granted n c.host c.port) (a2 ++ .offered c.call c.host c.port :: b) (by rw [hab, ha]; simp)).1
  have hask' : .asked n c.host c.port ∈ a := by rw [ha]; exact List.mem_append_left _ hask
  refine ⟨⟨a, b, n, hab, hin, hask', by rw [ha]; simp⟩, ?_⟩
  obtain ⟨pre, m, post, hlog, hm⟩ := hi.asks _ _ (hi.asked n _ _ (by rw [hab]; exact List.mem_append_left _ hask'))
  obtain ⟨aevs, hae⟩ := hi.server.auth
  obtain ⟨⟨l, l1, l2⟩, ⟨r, r1, r2⟩, h3⟩ := C39_tcp_partial (h.server.cfg x.server) aevs (e := .bindTcp c.host c.port)
    (a := pre ++ [.received 80 m]) (b := post) (.inr rfl) (by rw [← hae, hlog]; simp)
  refine ⟨pre, m, post, hlog, hm, ⟨l, by simpa using l1, l2⟩, ⟨r, (inEffect_snoc pre (.received 80 m)).symm.trans r1, r2⟩,
    fun u p acct hu hs => h3 u p acct ?_ hs⟩
  rw [← hu]
  simp [lastAccount]

/-- **C110.** The client is told about it, with that address and the origin of the connection. -/
theorem C110_told (hx : EnvOk x.server.trans) {evs : List DeskEvent} {h : Desk σ} (hr : ({} : Desk σ).run x evs = some h)
    (hlive : h.server.live = true) {c : Incoming} (hc : c ∈ h.board.calls) :
    forwardedTcpip c.line.number 1048576 32768 c.host c.port c.origin c.originPort ∈ packetsSent h.server.trans.posts := by
  have hi := DInv.of_run hx hr
  obtain ⟨rest, ho⟩ := (hi.ok c hc).offer
  exact (hi.sent hlive c hc).subset (by rw [ho]; exact List.mem_cons_self)

/-- **C110.** Two channels which exist at the same time have different numbers: no message reaches two of them; and no connection
has two channels. -/
theorem C110_distinct (hx : EnvOk x.server.trans) {evs : List DeskEvent} {h : Desk σ} (hr : ({} : Desk σ).run x evs = some h) :
    h.board.calls.Pairwise fun a b =>
      (a.line.isOpen = true → b.line.isOpen = true → a.line.number ≠ b.line.number) ∧ a.call ≠ b.call :=
  (DInv.of_run hx hr).apart

/-- **C110.** Data is transported only for a connection which the client has confirmed, with the number under which it was offered; at that
time the forwarding had not been ended, and the connection had not been closed, since it was offered. -/
theorem C110_joined (hx : EnvOk x.server.trans) {evs : List DeskEvent} {h : Desk σ} (hr : ({} : Desk σ).run x evs = some h)
    {c : Incoming} (hc : c ∈ h.board.calls) {r : Relay} (hl : c.line.relay = some r) :
    (∃ size rest, (91 :: channelOpenConfirmationBody c.line.number c.line.peer c.line.window size rest) ∈ clientMessages h.server.auth.log) ∧
    ∃ a1 a2 b, h.board.fw.log = a1 ++ .offered c.call c.host c.port :: a2 ++ .joined c.call :: b ∧
      .joined c.call ∉ a2 ∧ .dropped c.call ∉ a2 ∧ .cancel c.host c.port true ∉ a2 ∧ .ended ∉ a2 := by
  have hi := DInv.of_run hx hr
  obtain ⟨_, hj, pre, size, rest, post, hlog, _⟩ := (hi.ok c hc).live r hl
  refine ⟨⟨size, rest, ?_⟩, ?_⟩
  · rw [hlog, clientMessages_append, clientMessages_append]
    refine List.mem_append_left _ (List.mem_append_right _ ?_)
    simp [clientMessages, Incoming.answer]
  · obtain ⟨a, b, hab⟩ := List.append_of_mem hj
    obtain ⟨host, port, a1, a2, ha, g1, g2, g3, g4⟩ := hi.hist _ _ _ hab
    obtain ⟨rfl, rfl⟩ := hi.once c.call c.host c.port host port (hi.ok c hc).called (by rw [hab, ha]; simp)
    exact ⟨a1, a2, b, by rw [hab, ha], g1, g2, g3, g4⟩

/-- **C110.** What the connection receives is the beginning of what the client has sent to the channel with this number since it has
confirmed it: nothing is invented, repeated, left out or reordered, and nothing comes from another channel. As long as the
connection is alive, all of the client's messages are taken into account; and it is told that nothing more will come only
after the client has said so, when it has received everything the client has sent. -/
theorem C110_to_host (hx : EnvOk x.server.trans) {evs : List DeskEvent} {h : Desk σ} (hr : ({} : Desk σ).run x evs = some h)
    {c : Incoming} (hc : c ∈ h.board.calls) (hw : 0 < c.line.window) {r : Relay} (hl : c.line.relay = some r) :
    ∃ pre size rest post ms es, h.server.auth.log = pre ++
        [.received 91 (channelOpenConfirmationBody c.line.number c.line.peer c.line.window size rest),
         .channelMessage 91 (channelOpenConfirmationBody c.line.number c.line.peer c.line.window size rest)] ++ post ∧
      ms <+: clientMessages post ∧ (r.ch.stop = none → ms = clientMessages post) ∧ Forwarded c.line.number ms es ∧
      hostHeard r.log <+: clientSaid es ∧
      (RelayEntry.endToHost ∈ r.log → RelayEntry.clientEnds ∈ es ∧
        ∃ a b, es = a ++ b ∧ RelayEntry.clientEnds ∈ a ∧ clientSaid a <+: hostHeard r.log) := by
  obtain ⟨_, _, pre, size, rest, post, hlog, hv⟩ := ((DInv.of_run hx hr).ok c hc).live r hl
  obtain ⟨ms, m1, m2, m3⟩ := hv.said hw
  obtain ⟨revs, hrun⟩ := hv.isRun
  refine ⟨pre, size, rest, post, ms, _, hlog, m1, m3, m2, ?_, fun he => ?_⟩
  · rw [clientSaid_filter, hrun]
    exact C103_to_host x.ndebug hw revs
  · obtain ⟨a, b, hab⟩ := List.append_of_mem he
    obtain ⟨h1, h2⟩ := C103_end_to_host x.ndebug hw revs a b (by rw [← hrun]; exact hab)
    refine ⟨List.mem_filter.mpr ⟨by rw [hab]; exact List.mem_append_left _ h1, rfl⟩,
      a.filter RelayEntry.byClient, (RelayEntry.endToHost :: b).filter RelayEntry.byClient, ?_, List.mem_filter.mpr ⟨h1, rfl⟩, ?_⟩
    · rw [hab, List.filter_append]
    · rw [clientSaid_filter, ← h2, hab]
      simp only [hostHeard, List.flatMap_append]
      exact List.prefix_append _ _

/-- **C110.** The client is told about the connection, and then, with the number which it has given to the channel, everything which was
passed on to it, in this order, and finally that the channel is closed; and what was passed on is the beginning of what has arrived on
the connection. -/
theorem C110_to_client (hx : EnvOk x.server.trans) {evs : List DeskEvent} {h : Desk σ} (hr : ({} : Desk σ).run x evs = some h)
    (hlive : h.server.live = true) {c : Incoming} (hc : c ∈ h.board.calls) (hw : 0 < c.line.window) {r : Relay}
    (hl : c.line.relay = some r) :
    (forwardedTcpip c.line.number 1048576 32768 c.host c.port c.origin c.originPort ::
        r.log.filterMap (RelayEntry.message? c.line.peer)).Sublist (packetsSent h.server.trans.posts) ∧
    clientHeard r.log <+: hostSaid r.log := by
  have hi := DInv.of_run hx hr
  obtain ⟨_, _, pre, size, rest, post, hlog, hv⟩ := (hi.ok c hc).live r hl
  obtain ⟨revs, hrun⟩ := hv.isRun
  refine ⟨?_, by rw [hrun]; exact (C103_to_client x.ndebug hw revs).1⟩
  have hsm := relay_small x.ndebug c.line.window revs
  rw [← hrun] at hsm
  have : r.log.filterMap (RelayEntry.message? c.line.peer) = r.log.filterMap (relayMessage c.line.peer) :=
    filterMap_ext fun e he => (relay_message fun bs hb => hsm.pieces bs (hb ▸ he)).symm
  rw [this]
  exact hv.out.trans (hi.sent hlive c hc)

/-- **C110.** If the server closes the channel, and neither has the client closed it nor the connection been aborted, then
everything which has arrived was sent to the client before (see C103 for the assumption about `recv()`, which is stated here for
the events of this connection). -/
theorem C110_complete (hx : EnvOk x.server.trans) {evs : List DeskEvent} {h : Desk σ} (hr : ({} : Desk σ).run x evs = some h)
    {c : Incoming} (hc : c ∈ h.board.calls) (hw : 0 < c.line.window) {r : Relay} (hl : c.line.relay = some r) :
    ∃ revs, r = Relay.run x.ndebug (Relay.init c.line.window) revs ∧
      ((∀ e ∈ revs, e.full = true) → RelayEntry.closes ∈ r.log → RelayEntry.resets ∉ r.log → RelayEntry.clientCloses ∉ r.log →
        RelayEntry.hostEnds ∈ r.log ∧ clientHeard r.log = hostSaid r.log) := by
  obtain ⟨_, _, pre, size, rest, post, hlog, hv⟩ := ((DInv.of_run hx hr).ok c hc).live r hl
  obtain ⟨revs, hrun⟩ := hv.isRun
  refine ⟨revs, hrun, fun hf h1 h2 h3 => ?_⟩
  rw [hrun] at h1 h2 h3 ⊢
  exact C103_complete x.ndebug hw revs hf h1 h2 h3

/-- **C110.** When the connection to the client has ended, the server does not listen for it any more, and no request and no connection
waits; nothing of this kind happens later. -/
theorem C110_ended (hx : EnvOk x.server.trans) {evs : List DeskEvent} {h : Desk σ} (hr : ({} : Desk σ).run x evs = some h)
    (hd : h.server.live = false) :
    h.board.fw.pending = [] ∧ h.board.fw.listeners = [] ∧ h.board.fw.waiting = [] ∧ ∃ l, h.board.fw.log = l ++ [.ended] ∧ .ended ∉ l := by
  have hi := (DInv.of_run hx hr).over hd
  obtain ⟨l, hl⟩ := hi.last
  exact ⟨hi.none.1, hi.none.2.1, hi.none.2.2, l, hl, hi.hist l .ended [] hl⟩

/-- **C110.** While the connection exists, the server listens exactly on the addresses of the forwardings which are in effect. -/
theorem C110_listens (hx : EnvOk x.server.trans) {evs : List DeskEvent} {h : Desk σ} (hr : ({} : Desk σ).run x evs = some h)
    (hlive : h.server.live = true) : h.board.fw.listeners.map (fun l => (l.host, l.port)) = forwardings h.board.fw.log :=
  ((DInv.of_run hx hr).core hlive).fw.symm

/-- **C110.** After a login with a signature, every forwarding from which a connection comes was asked for, every connection for which
data is transported was confirmed, and everything which was passed on to it was sent, by the holder of the key, in the sense of C94. -/
theorem C110_holder {ι : Type} (conn : ι → ClientSide) (hconn : ∀ j, (conn j).Proper) (hx : EnvOk x.server.trans)
    (hv : x.server.trans.kex.ownVersion.length < 2 ^ 32) {evs : List DeskEvent} {h : Desk σ}
    (hr : ({} : Desk σ).run x evs = some h) (hz : Sized h.server.trans.kx.kx.log)
    (hA : ∀ j pre enc mac keys post tr, h.server.trans.kx.kx.log = pre ++ .installIn enc mac keys :: post → lastAgreed pre = some tr →
      (conn j).ephemeral tr.clientEph →
      AcceptsOnly x.server.trans.ops (x.server.trans.makeCipher .incoming enc mac keys) 0 ((conn j).sent enc mac keys))
    {l : Login} (hl : .loggedIn l ∈ h.server.auth.log) (hm : l.method = ascii "publickey" ∨ l.method = ascii "hostbased") :
    ∃ t key f, firstAgreed h.server.trans.kx.kx.log = some t ∧ RequestFor l.method f key ∧
      (UserForgery (fun m sig => x.server.auth.verify key m sig = some true) x.server.trans.kex.digest
          (fun t' r => ∃ j, (conn j).first = t' ∧ (conn j).signs key r) ∨
       (∃ j, Collision x.server.trans.kex.digest t (conn j).first) ∨
       ∃ j, (conn j).first = t ∧ (conn j).signs key (authRequest l.user l.method f) ∧
        ∀ u ∈ h.board.calls,
          (∃ m enc mac keys, AsksBind m (.bindTcp u.host u.port) ∧ (80 :: m) ∈ (conn j).sent enc mac keys) ∧
          (∀ r, u.line.relay = some r →
            (∃ size rest enc mac keys,
              (91 :: channelOpenConfirmationBody u.line.number u.line.peer u.line.window size rest) ∈ (conn j).sent enc mac keys) ∧
            (0 < u.line.window → ∀ e ∈ r.log, e.byClient = true → ∃ enc mac keys p,
              p ∈ (conn j).sent enc mac keys ∧ Passed u.line.number p e))) := by
  obtain ⟨sevs, hsr⟩ := C110_connection hr
  obtain ⟨t, hk, key, f, h1, _, h3, h4⟩ := C94_holder conn hconn hx hv hsr hz hA hl hm
  refine ⟨t, key, f, h1, h3, ?_⟩
  rcases h4 with h4 | h4 | ⟨j, h4, h5, _, h6⟩
  · exact .inl h4
  · exact .inr (.inl h4)
  · refine .inr (.inr ⟨j, h4, h5, fun u hu => ⟨?_, fun r hrr => ⟨?_, ?_⟩⟩⟩)
    · obtain ⟨_, pre, m, post, hlog, ha, _⟩ := C110_offered hx hr hu
      obtain ⟨_, enc, mac, keys, _, _, hq⟩ := h6 (80 :: m) (by
        rw [hlog, clientMessages_append, clientMessages_append]
        refine List.mem_append_left _ (List.mem_append_right _ ?_)
        simp [clientMessages])
      exact ⟨m, enc, mac, keys, ha, hq⟩
    · obtain ⟨⟨size, rest, hmem⟩, _⟩ := C110_joined hx hr hu hrr
      obtain ⟨_, enc, mac, keys, _, _, hq⟩ := h6 _ hmem
      exact ⟨size, rest, enc, mac, keys, hq⟩
    · intro hw e he hb
      obtain ⟨_, _, pre, size, rest, post, hlog, hv⟩ := ((DInv.of_run hx hr).ok u hu).live r hrr
      obtain ⟨ms, m1, m2, _⟩ := hv.said hw
      obtain ⟨p, hp', hh⟩ := m2.mem (List.mem_filter.mpr ⟨he, hb⟩)
      obtain ⟨_, enc, mac, keys, _, _, hq⟩ := h6 p (by
        rw [hlog, clientMessages_append]
        exact List.mem_append_right _ (m1.subset hp'))
      exact ⟨enc, mac, keys, p, hq, hh⟩

/-! ### Non-vacuity -/

/-- The client logs in as in the example for C93 and asks for a forwarding. Three connections arrive; it confirms the first, sends something
to it, ends the forwarding, and confirms the second one, which does not exist any more. -/
def demoLease : List Bytes := demoVisit.take 2 ++
  [80 :: (str (ascii "tcpip-forward") ++ (1 :: (str (ascii "web") ++ u32 80))),
   91 :: channelOpenConfirmationBody 0 5 1000 1000 [],
   94 :: channelDataBody 0 [1, 2, 3],
   80 :: (str (ascii "cancel-tcpip-forward") ++ (1 :: (str (ascii "web") ++ u32 80))),
   91 :: channelOpenConfirmationBody 1 6 1000 1000 [],
   92 :: channelOpenFailureBody 2 1 [65] []]

def demoShore : HubEnv (Nat × List Bytes) where
  server := { trans := demoLink demoEndS 0 demoLease, auth := demoAuth }
  ndebug := false

theorem demoShore_ok : EnvOk demoShore.server.trans := demoLink_ok (demoEnd_digest _ _) 0 _

def demoBring (c : Chance) (p : Bytes) : List DeskEvent := (demoKnock p).map fun ev => .server ev c

def demoHarbour : List DeskEvent :=
  (demoArrive ++ (demoVisit.flatMap demoKnock).take 12 ++ [ServerEvent.other (.translated (some {}))]).map (fun ev => .server ev { number := 0 }) ++
  demoBring { number := 0 } (demoLease.getD 2 []) ++
  [.bound 0 (some 80), .accept 0 0 (ascii "a") 7, .accept 0 1 (ascii "b") 8, .accept 0 2 (ascii "c") 9] ++
  ((demoLease.drop 3).take 2).flatMap (demoBring { number := 0, wrote := .wrote 2 }) ++
  [.hangup 2] ++
  (demoLease.drop 5).flatMap (demoBring { number := 0 }) ++
  [.relay 0 (.hostSends [7, 8]), .relay 0 (.ready (some [(1, .wrote 1)]) true 0 false), .accept 0 3 (ascii "d") 1]

/-- Non-vacuity (C110): all of this happens, on a connection which still exists. -/
example : EnvOk demoShore.server.trans ∧
    (({} : Desk (Nat × List Bytes)).run demoShore demoHarbour).map (fun h =>
      (h.server.live && decide (clientMessages h.server.auth.log = demoLease),
       h.board.calls.map (fun c => (c.line.number, c.line.isOpen, c.tomb)),
       h.board.fw.log)) =
      some (true, [(0, true, false), (1, true, true), (2, false, false)],
        [.asked 0 (ascii "web") 80, .granted 0 (ascii "web") 80, .arrived 0 80, .offered 0 (ascii "web") 80, .arrived 1 80,
         .offered 1 (ascii "web") 80, .arrived 2 80, .offered 2 (ascii "web") 80, .joined 0, .dropped 2, .cancel (ascii "web") 80 true,
         .dropped 1]) :=
  ⟨demoShore_ok, by decide +kernel⟩

/-- … what was transported, and what the client was told. -/
example :
    (({} : Desk (Nat × List Bytes)).run demoShore demoHarbour).map (fun h =>
      (h.board.calls.map fun c => (decide (c.line.window = 1000), c.line.relay.map fun r => decide (r.log =
         [.client [1, 2, 3], .toHost [1, 2], .host [7, 8], .toHost [3], .toClient [7, 8]])),
       (packetsSent h.server.trans.posts).drop 5)) =
      some ([(true, some true), (false, none), (false, none)],
        [forwardedTcpip 0 1048576 32768 (ascii "web") 80 (ascii "a") 7, forwardedTcpip 1 1048576 32768 (ascii "web") 80 (ascii "b") 8,
         forwardedTcpip 2 1048576 32768 (ascii "web") 80 (ascii "c") 9, 97 :: channelBody 6, 94 :: channelDataBody 5 [7, 8]]) := by
  decide +kernel

/-- The client goes away while a connection waits. -/
def demoFarewell : List DeskEvent := demoHarbour.take (demoHarbour.length - 20)

/-- Non-vacuity (`C110_ended`). -/
example :
    (({} : Desk (Nat × List Bytes)).run demoShore (demoFarewell ++ [.server (.other .closed) { number := 0 }, .accept 0 3 (ascii "d") 1])).map
      (fun h => (h.server.live, h.board.fw.log.drop 8)) =
      some (false, [.joined 0, .dropped 2, .dropped 1, .ended]) := by
  decide +kernel

def demoTenant (t : Transcript) : ClientSide := { demoGuest t with sent := fun _ _ _ => demoLease }

theorem demoLease_number : ∀ p ∈ demoLease, p.head? ≠ some 30 := by decide +kernel

theorem demoTenant_proper {t : Transcript} (h : Transcript.Encodable t) (h' : AnnouncesStrict t.clientKexinit) :
    (demoTenant t).Proper where
  encodable := h
  own := rfl
  later := fun _ _ _ _ h => absurd rfl (demoLease_number _ h)
  strict := h'

/-- Non-vacuity (`C110_holder`): the login is one with a signature; the client is the one of the example. -/
example : (demoTenant demoFirst).Proper ∧
    (({} : Desk (Nat × List Bytes)).run demoShore demoHarbour).map (fun h =>
      (decide (Sized h.server.trans.kx.kx.log) && decide (firstAgreed h.server.trans.kx.kx.log = some demoFirst),
       (logins h.server.auth.log).map (·.method))) = some (true, [ascii "publickey"]) ∧
    ∀ t enc mac keys, AcceptsOnly ticket (demoShore.server.trans.makeCipher .incoming enc mac keys) 0 ((demoTenant t).sent enc mac keys) :=
  ⟨demoTenant_proper demoFirst_encodable demoFirst_strict, by decide +kernel, fun _ _ _ _ => demoLink_accepts 0 (by decide)⟩

end Lukko
