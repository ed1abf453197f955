import Verif.Proof.House
import Verif.Prop.Reverse
/-
  C112: the server with channels of all kinds on one connection.
-/
namespace Lukko
open Model Spec

variable {σ : Type} {x : HouseEnv σ}

theorem HoInv.of_run (hx : EnvOk x.host.server.trans) {evs : List HouseEvent} {h : House σ}
    (hr : ({} : House σ).run x evs = some h) : HoInv x h := by
  obtain ⟨h', h1, h2⟩ := HoInv.run (x := x) hx evs HoInv.init
  rw [hr] at h1
  cases h1
  exact h2

/-- **C112.** No assertion fails, with any number of channels of any kind. -/
theorem C112_no_assertion_fails (hx : EnvOk x.host.server.trans) (evs : List HouseEvent) : (({} : House σ).run x evs).isSome := by
  obtain ⟨h', h1, _⟩ := HoInv.run (x := x) hx evs HoInv.init
  rw [h1]; rfl

/-- **C112.** The sessions are as if there were no other channels; to them applies all of C96. -/
theorem C112_sessions (hx : EnvOk x.host.server.trans) {evs : List HouseEvent} {h : House σ} (hr : ({} : House σ).run x evs = some h) :
    ∃ evs', ({} : Host σ).run x.host evs' = some { server := h.server, sessions := h.sessions } := (HoInv.of_run hx hr).host

/-- **C112.** So are the connections to hosts; to them applies all of C105. -/
theorem C112_tunnels (hx : EnvOk x.host.server.trans) {evs : List HouseEvent} {h : House σ} (hr : ({} : House σ).run x evs = some h) :
    ∃ evs', ({} : Hub σ).run x.hub evs' = some { server := h.server, tunnels := h.tunnels } := (HoInv.of_run hx hr).hub

/-- **C112.** So are the listeners and the connections which have arrived there; to them applies all of C110. -/
theorem C112_listeners (hx : EnvOk x.host.server.trans) {evs : List HouseEvent} {h : House σ} (hr : ({} : House σ).run x evs = some h) :
    ∃ evs', ({} : Desk σ).run x.hub evs' = some { server := h.server, board := h.board } := (HoInv.of_run hx hr).desk

/-- The numbers of the open channels. -/
def openNumbers (h : House σ) : List Nat :=
  (h.sessions.filter (·.isOpen)).map (·.number) ++ (h.tunnels.filter (·.isOpen)).map (·.number) ++
    (h.board.calls.filter (·.line.isOpen)).map (·.line.number)

theorem nodup_open {α : Type} {o : α → Bool} {k : α → Nat} {l : List α} (h : l.Pairwise fun a b => o a = true → o b = true → k a ≠ k b) :
    ((l.filter o).map k).Nodup := by
  rw [List.Nodup, List.pairwise_map, List.pairwise_filter]
  exact h.imp fun hab ha hb => hab ha hb

theorem mem_open {α : Type} {o : α → Bool} {k : α → Nat} {l : List α} {n : Nat} (h : n ∈ (l.filter o).map k) : numberIn o k l n = true := by
  obtain ⟨a, ha, rfl⟩ := List.mem_map.mp h
  obtain ⟨h1, h2⟩ := List.mem_filter.mp ha
  exact numberIn_iff.mpr ⟨a, h1, h2, rfl⟩

/-- **C112.** No two open channels have the same number, whatever they are; and all numbers are below 64. -/
theorem C112_distinct (hx : EnvOk x.host.server.trans) {evs : List HouseEvent} {h : House σ} (hr : ({} : House σ).run x evs = some h) :
    (openNumbers h).Nodup ∧ ∀ n ∈ openNumbers h, n < 64 := by
  have hi := HoInv.of_run hx hr
  obtain ⟨e1, r1⟩ := hi.host
  obtain ⟨e2, r2⟩ := hi.hub
  obtain ⟨e3, r3⟩ := hi.desk
  have i1 := HInv.of_run (x := x.host) hx r1
  have i2 := HubInv.of_run (x := x.hub) hx r2
  have i3 := DInv.of_run (x := x.hub) hx r3
  refine ⟨?_, fun n hn => ?_⟩
  · refine List.nodup_append.mpr ⟨List.nodup_append.mpr ⟨nodup_open i1.apart, nodup_open i2.apart, ?_⟩, ?_, ?_⟩
    · rintro a ha b hb rfl
      exact hi.kinds.st a (mem_open ha) (mem_open hb)
    · exact nodup_open (o := fun c : Incoming => c.line.isOpen) (k := fun c : Incoming => c.line.number) (i3.apart.imp fun hab => hab.1)
    · rintro a ha b hb rfl
      have hc : inCalls h.board.calls a = true := mem_open hb
      rcases List.mem_append.mp ha with ha | ha
      · exact hi.kinds.sc a (mem_open ha) hc
      · exact hi.kinds.tc a (mem_open ha) hc
  · rcases List.mem_append.mp hn with hn | hn
    · rcases List.mem_append.mp hn with hn | hn
      · obtain ⟨s, hs, rfl⟩ := List.mem_map.mp hn
        obtain ⟨y, pre, post, hk⟩ := i1.ok s (List.mem_filter.mp hs).1
        exact hk.number
      · obtain ⟨t, ht, rfl⟩ := List.mem_map.mp hn
        obtain ⟨pre, post, hk⟩ := i2.ok t (List.mem_filter.mp ht).1
        exact hk.number
    · obtain ⟨c, hc, rfl⟩ := List.mem_map.mp hn
      exact (i3.ok c (List.mem_filter.mp hc).1).number

theorem nodup_below {n : Nat} : ∀ {l : List Nat}, l.Nodup → (∀ a ∈ l, a < n) → l.length ≤ n := by
  induction n with
  | zero =>
    intro l _ h
    cases l with
    | nil => exact Nat.le_refl _
    | cons a l => exact absurd (h a List.mem_cons_self) (Nat.not_lt_zero a)
  | succ n ih =>
    intro l hd h
    have := ih (l := l.erase n) (hd.erase n) fun a ha => by
      obtain ⟨h1, h2⟩ := (hd.mem_erase_iff).mp ha
      have := h a h2
      omega
    rw [List.length_erase] at this
    split at this <;> omega

/-- **C112.** There are never more than 64 open channels. -/
theorem C112_at_most_64 (hx : EnvOk x.host.server.trans) {evs : List HouseEvent} {h : House σ} (hr : ({} : House σ).run x evs = some h) :
    (h.sessions.filter (·.isOpen)).length + (h.tunnels.filter (·.isOpen)).length + (h.board.calls.filter (·.line.isOpen)).length ≤ 64 := by
  obtain ⟨h1, h2⟩ := C112_distinct hx hr
  have := nodup_below h1 h2
  simpa [openNumbers, Nat.add_assoc] using this

theorem house_settle {h h' : House σ} {s ss ts b} (hs : h.settle x s ss ts b = some h') :
    h'.sessions = ss ∧ h'.tunnels = ts ∧ h'.board.calls = b.calls := by
  obtain ⟨s', h1, rfl⟩ := Option.map_eq_some_iff.mp hs
  refine ⟨rfl, rfl, ?_⟩
  simp only
  cases h.server.live && !s'.live <;> rfl

/-- **C112.** Whatever happens, it does not change channels of two kinds: what the client sends to one of them, or what happens to
one of them, leaves the others as they are. -/
theorem C112_one_kind (hx : EnvOk x.host.server.trans) {evs : List HouseEvent} {h h' : House σ} (hr : ({} : House σ).run x evs = some h)
    {ev : HouseEvent} (hs : h.step x ev = some h') :
    (h'.tunnels = h.tunnels ∧ h'.board.calls = h.board.calls) ∨ (h'.sessions = h.sessions ∧ h'.board.calls = h.board.calls) ∨
    (h'.sessions = h.sessions ∧ h'.tunnels = h.tunnels) := by
  have hi := HoInv.of_run hx hr
  cases ev with
  | session i ev =>
    simp only [House.step] at hs
    cases hl : ev.isLocal with
    | false => rw [hl] at hs; cases hs; exact .inl ⟨rfl, rfl⟩
    | true =>
      rw [hl] at hs
      exact .inl (house_settle hs).2
  | tunnel ev =>
    obtain ⟨h1, _, h3⟩ := house_settle (show h.settle x _ _ _ _ = some h' from hs)
    exact .inr (.inl ⟨h1, h3⟩)
  | desk ev =>
    obtain ⟨h1, h2, _⟩ := house_settle (show h.settle x _ _ _ _ = some h' from hs)
    exact .inr (.inr ⟨h1, h2⟩)
  | server ev c =>
    obtain ⟨s', h1, h2⟩ := Option.bind_eq_some_iff.mp (show (h.server.step x.host.server ev).bind _ = some h' from hs)
    obtain ⟨e1, e2, e3⟩ := house_settle h2
    have hsv := hi.server hx
    have hk : OneKind ({ c with number := h.number c.number } : Chance).number h.sessions h.tunnels h.board.calls h'.sessions h'.tunnels h'.board.calls := by
      rw [e1, e2, e3]
      cases hl : h.server.live with
      | true =>
        obtain ⟨z, es, tail, n1, n2, n3, n4⟩ := (below_step hx hsv h1).news
        have hdr : s'.auth.log.drop h.server.auth.log.length = es ++ tail := by rw [n1, List.drop_left]
        rw [hdr]
        exact one_kind n2 n3 hi.kinds _
      | false =>
        obtain ⟨tail, t1, t2⟩ := dead_step hl h1
        have hdr : s'.auth.log.drop h.server.auth.log.length = tail := by rw [t1, List.drop_left]
        rw [hdr, deliverAll_plain t2, routeAll_plain t2]
        exact .sessions rfl rfl fun k h => .inl h
    cases hk with
    | sessions g1 g2 => exact .inl ⟨g1, g2⟩
    | tunnels g1 g2 => exact .inr (.inl ⟨g1, g2⟩)
    | calls g1 g2 => exact .inr (.inr ⟨g1, g2⟩)

/-- **C112.** With channels of all kinds: the input of the processes of a session is what the client has sent to it, in this order
(except for what could not be written to the process). -/
theorem C112_input (hx : EnvOk x.host.server.trans) {evs : List HouseEvent} {h : House σ} (hr : ({} : House σ).run x evs = some h)
    {s : Session} (hs : s ∈ h.sessions) :
    ∃ ms es, ms <:+: clientMessages h.server.auth.log ∧ Meaning s.number ms es ∧ inputOrLost s.ch.s.log <+: clientData es := by
  obtain ⟨e, r⟩ := C112_sessions hx hr
  exact C96_input (x := x.host) hx r hs

/-- **C112.** With channels of all kinds: the client is told about everything that happens in a session, with the number which it
has given to the channel, in this order. -/
theorem C112_output (hx : EnvOk x.host.server.trans) {evs : List HouseEvent} {h : House σ} (hr : ({} : House σ).run x evs = some h)
    (hl : h.server.live = true) {s : Session} (hs : s ∈ h.sessions) :
    ((s.ch.s.log.filterMap (SessEntry.message? s.peer)).filter fun p => p.length ≤ 65531).Sublist (packetsSent h.server.trans.posts) := by
  obtain ⟨e, r⟩ := C112_sessions hx hr
  exact C96_output (x := x.host) hx r hl hs

/-- **C112.** With channels of all kinds: what a host receives is the beginning of what the client has sent to the channel with this
number since it was opened. -/
theorem C112_to_host (hx : EnvOk x.host.server.trans) {evs : List HouseEvent} {h : House σ} (hr : ({} : House σ).run x evs = some h)
    {t : Tunnel} (ht : t ∈ h.tunnels) (hw : 0 < t.window) {r : Relay} (hl : t.relay = some r) :
    ∃ pre type size rest mid post ms es, h.server.auth.log =
        pre ++ [.received 90 (channelOpenBody type t.peer t.window size rest), t.target] ++ (mid ++ post) ∧
      ms <+: clientMessages post ∧ (r.ch.stop = none → ms = clientMessages post) ∧ Forwarded t.number ms es ∧
      hostHeard r.log <+: clientSaid es := by
  obtain ⟨e, hr'⟩ := C112_tunnels hx hr
  obtain ⟨pre, type, size, rest, mid, post, ms, es, h1, h2, h3, h4, h5, _⟩ := C105_to_host (x := x.hub) hx hr' ht hw hl
  exact ⟨pre, type, size, rest, mid, post, ms, es, h1, h2, h3, h4, h5⟩

/-- **C112.** With channels of all kinds: a connection which arrives at a listener is passed to the client, with the client's number
for the channel, as it came in, in this order, and its data is the beginning of what has arrived. -/
theorem C112_to_client (hx : EnvOk x.host.server.trans) {evs : List HouseEvent} {h : House σ} (hr : ({} : House σ).run x evs = some h)
    (hlive : h.server.live = true) {c : Incoming} (hc : c ∈ h.board.calls) (hw : 0 < c.line.window) {r : Relay}
    (hl : c.line.relay = some r) :
    (forwardedTcpip c.line.number 1048576 32768 c.host c.port c.origin c.originPort ::
        r.log.filterMap (RelayEntry.message? c.line.peer)).Sublist (packetsSent h.server.trans.posts) ∧
    clientHeard r.log <+: hostSaid r.log := by
  obtain ⟨e, hr'⟩ := C112_listeners hx hr
  exact C110_to_client (x := x.hub) hx hr' hlive hc hw hl

/-! ### Non-vacuity -/

/-- The client logs in as in the example for C93. It opens a session, asks for a connection and for a forwarding; it confirms the
connection which arrives there; it executes a program; and it sends something to each channel. -/
def demoFair : List Bytes := demoVisit ++
  [90 :: channelOpenBody (ascii "direct-tcpip") 5 1000 1000 (str (ascii "db") ++ (u32 80 ++ (str (ascii "me") ++ u32 9))),
   80 :: (str (ascii "tcpip-forward") ++ (1 :: (str (ascii "web") ++ u32 80))),
   91 :: channelOpenConfirmationBody 2 6 1000 1000 [],
   98 :: (u32 0 ++ (str (ascii "exec") ++ 1 :: str (ascii "cat"))),
   94 :: channelDataBody 0 [1, 2],
   94 :: channelDataBody 1 [3, 6],
   94 :: channelDataBody 2 [4, 5],
   97 :: channelBody 1]

def demoHall : HouseEnv (Nat × List Bytes) where
  host := { demoInn with server := { trans := demoLink demoEndS 0 demoFair, auth := demoAuth } }
  ndebug := false

theorem demoHall_ok : EnvOk demoHall.host.server.trans := demoLink_ok (demoEnd_digest _ _) 0 _

def demoEnter (c : Chance) (p : Bytes) : List HouseEvent := (demoKnock p).map fun ev => .server ev c

/-- Number 0 is in use when the connection arrives: there is no room for it under this number. -/
def demoParty : List HouseEvent :=
  (demoStay.dropLast.map fun ev => .server ev { number := 0 }) ++
  demoEnter { number := 1 } (demoFair.getD 3 []) ++
  [.tunnel (.connected 0)] ++
  demoEnter { number := 1 } (demoFair.getD 4 []) ++
  [.desk (.bound 0 (some 80)), .desk (.accept 0 0 (ascii "z") 1), .desk (.accept 0 2 (ascii "a") 7)] ++
  ((demoFair.drop 5).take 2).flatMap (demoEnter { number := 3 }) ++
  [.session 0 (.enqueued 0 .ok), .session 0 (.completed 0 none)] ++
  (demoFair.drop 7).flatMap (demoEnter { number := 3, wrote := .wrote 2 }) ++
  [.desk (.relay 0 (.hostSends [7, 8])), .desk (.relay 0 (.ready none true 0 false)),
   .session 0 (.writes .stdout [9]), .session 0 (.pipeReady .stdout 100)]

/-- Non-vacuity (C112): all of this happens, on a connection which still exists. -/
example : EnvOk demoHall.host.server.trans ∧
    (({} : House (Nat × List Bytes)).run demoHall demoParty).map (fun h =>
      (h.server.live && decide (clientMessages h.server.auth.log = demoFair), openNumbers h, h.tunnels.map (fun t => (t.number, t.isOpen)))) =
      some (true, [0, 2], [(1, false)]) :=
  ⟨demoHall_ok, by decide +kernel⟩

/-- … what each channel was told. -/
example :
    (({} : House (Nat × List Bytes)).run demoHall demoParty).map (fun h =>
      (h.sessions.map (fun s => decide (s.ch.s.log =
         [.asked (ascii "exec") (str (ascii "cat")), .started { program := .command (ascii "cat") }, .answered true,
          .data [1, 2], .input [1, 2], .wrote .stdout [9], .sent .stdout [9]])),
       h.tunnels.map (fun t => t.relay.any fun r => decide (r.log = [.client [3, 6], .toHost [3, 6], .clientCloses, .closes])),
       h.board.calls.map (fun c => c.line.relay.any fun r => decide (r.log =
         [.client [4, 5], .toHost [4, 5], .host [7, 8], .toClient [7, 8]])))) =
      some ([true], [true], [true]) := by
  decide +kernel

/-- … and what the client was told; nobody was told about the connection for which there was no number. -/
example :
    (({} : House (Nat × List Bytes)).run demoHall demoParty).map (fun h =>
      ((packetsSent h.server.trans.posts).drop 5, h.board.fw.log)) =
      some ([91 :: channelOpenConfirmationBody 5 1 1048576 32768 [],
         forwardedTcpip 2 1048576 32768 (ascii "web") 80 (ascii "a") 7, 97 :: channelBody 5, 94 :: channelDataBody 6 [7, 8],
         94 :: channelDataBody 0 [9]],
        [.asked 0 (ascii "web") 80, .granted 0 (ascii "web") 80, .arrived 0 80, .dropped 0, .arrived 1 80,
         .offered 1 (ascii "web") 80, .joined 1]) := by
  decide +kernel

end Lukko
