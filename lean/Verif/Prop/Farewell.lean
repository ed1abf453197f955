import Verif.Proof.Farewell
import Verif.Prop.Strict
import Verif.Spec.Farewell
/-
  C114: the end of a connection is the end of everything on it.
-/
namespace Lukko
open Model Spec

variable {σ : Type} {x : HouseEnv σ}

/-- **C114.** No assertion fails, neither while the connection exists nor afterwards. -/
theorem C114_no_assertion_fails (hx : EnvOk x.host.server.trans) (evs : List HouseEvent) : (({} : House σ).fullRun x evs).isSome := by
  obtain ⟨h, hr, _⟩ := full_ok (x := x) hx evs
  rw [hr]; rfl

/-- **C114.** While the connection exists, all is as in C113. -/
theorem C114_before (hx : EnvOk x.host.server.trans) {evs : List HouseEvent} {h : House σ} (hr : ({} : House σ).fullRun x evs = some h)
    (hl : h.server.live = true) : ({} : House σ).strictRun x evs = some h := by
  cases full_phase hx hr with
  | alive _ h2 => exact h2
  | over _ _ _ _ _ _ _ _ _ ho => rw [ho.dead] at hl; cases hl

theorem session_running (hx : EnvOk x.host.server.trans) {evs : List HouseEvent} {h : House σ}
    (hr : ({} : House σ).strictRun x evs = some h) {s : Session} (hs : s ∈ h.sessions) : running s.ch.s.log = childCount s.ch.s ∧ Neat s.ch := by
  obtain ⟨evs', r⟩ := (HoInv.of_strict hx hr).host
  obtain ⟨y, pre, post, hk⟩ := (HInv.of_run (x := x.host) hx r).ok s hs
  obtain ⟨w, m, rest, pre', es, _, h2⟩ := hk.ch
  rw [h2]
  exact ⟨(sess_inv s.cfg y.opts.restrictions w es).run, closed_neat _ _ _ _⟩

theorem dropChild_kills (s : Sess) : s.dropChild.log = s.log ++ (if s.child.isSome then [.killed] else []) := by
  unfold Sess.dropChild
  cases s.child <;> simp

theorem dropChild_running {s : Sess} (h : running s.log = childCount s) : running s.dropChild.log = 0 := by
  rw [dropChild_kills, running_append, h, childCount]
  cases s.child <;> simp [running]

/-- **C114.** When the connection has ended, for whichever reason, then no process which was started on it runs any more; no channel is
open; no forwarded connection is left; nothing is listened on for the client, or is going to be, and no connection which had
arrived waits. -/
theorem C114_nothing_left (hx : EnvOk x.host.server.trans) {evs : List HouseEvent} {h : House σ}
    (hr : ({} : House σ).fullRun x evs = some h) (hl : h.server.live = false) :
    (∀ s ∈ h.sessions, running s.ch.s.log = 0 ∧ s.isOpen = false ∧ s.ch.stop ≠ none) ∧
    (∀ t ∈ h.tunnels, t.isOpen = false ∧ ∀ r, t.relay = some r → r.ch.stop ≠ none) ∧
    (∀ c ∈ h.board.calls, c.line.isOpen = false ∧ ∀ r, c.line.relay = some r → r.ch.stop ≠ none) ∧
    h.board.fw.listeners = [] ∧ h.board.fw.pending = [] ∧ h.board.fw.waiting = [] := by
  cases full_phase hx hr with
  | alive h1 _ => rw [h1] at hl; cases hl
  | @over pre ev post g₀ g _ h2 _ h4 _ h6 _ _ _ ho =>
    refine ⟨fun s hs => ⟨?_, (ho.sessions s hs).shut, (ho.sessions s hs).stop⟩, fun t ht => ⟨(ho.tunnels t ht).shut, (ho.tunnels t ht).stop⟩,
      fun c hc => ⟨(ho.calls c hc).shut, (ho.calls c hc).stop⟩, ho.listeners, ho.pending, ho.waiting⟩
    rw [h6] at hs
    obtain ⟨s', hs', rfl⟩ := List.mem_map.mp hs
    have hg : ({} : House σ).strictRun x (pre ++ [ev]) = some g := by
      rw [Model.House.strictRun_append, h2]
      simp only [Option.bind_some, House.strictRun, h4]
    exact dropChild_running (session_running hx hg hs').1

theorem pointwise_map {α : Type} {R : α → α → Prop} {f : α → α} {l : List α} (h : ∀ a ∈ l, R a (f a)) : Pointwise R l (l.map f) where
  length := by simp
  each i a b ha hb := by
    rw [List.getElem?_map, ha] at hb
    cases hb
    exact h a (List.mem_of_getElem? ha)

/-- What becomes of a session: its process is killed, if there is one; nothing else happens. -/
structure SessionEnds (a b : Session) : Prop where
  number : b.number = a.number
  log : b.ch.s.log = a.ch.s.log ++ (if running a.ch.s.log = 0 then [] else [.killed])

/-- What becomes of a forwarded connection: it is closed, if it has not been already. -/
structure TunnelEnds (a b : Tunnel) : Prop where
  number : b.number = a.number
  out : b.out = a.out
  asked : b.relay.isSome = a.relay.isSome
  log : ∀ r, a.relay = some r → ∃ r', b.relay = some r' ∧ r'.log = r.log ++ (if r.ch.stop = none then [.dies] else [])

theorem Relay.destroy_log (r : Relay) : r.destroy.log = r.log ++ (if r.ch.stop = none then [.dies] else []) := by
  unfold Relay.destroy
  cases h : r.ch.stop <;> simp

theorem tunnel_ends (t : Tunnel) : TunnelEnds t t.destroy where
  number := rfl
  out := rfl
  asked := by simp [Tunnel.destroy]
  log r hr := ⟨r.destroy, by simp [Tunnel.destroy, hr], Relay.destroy_log r⟩

/-- **C114.** How it ends: until one event, which ends the connection, all was as in C113; with it, each process which still runs is
killed, and each forwarded connection which still exists is closed.  Nothing is sent for that. -/
theorem C114_the_end (hx : EnvOk x.host.server.trans) {evs : List HouseEvent} {h : House σ}
    (hr : ({} : House σ).fullRun x evs = some h) (hl : h.server.live = false) :
    ∃ pre ev post h₀ h₁, evs = pre ++ ev :: post ∧ ({} : House σ).strictRun x pre = some h₀ ∧ h₀.server.live = true ∧
      ({} : House σ).strictRun x (pre ++ [ev]) = some h₁ ∧ h₁.server.live = false ∧
      Pointwise SessionEnds h₁.sessions h.sessions ∧ Pointwise TunnelEnds h₁.tunnels h.tunnels ∧
      Pointwise (fun a b => TunnelEnds a.line b.line ∧ b.call = a.call) h₁.board.calls h.board.calls ∧
      h.board.fw = h₁.board.fw ∧ packetsSent h.server.trans.posts = packetsSent h₁.server.trans.posts := by
  cases full_phase hx hr with
  | alive h1 _ => rw [h1] at hl; cases hl
  | over h1 h2 h3 h4 h5 h6 h7 h8 h9 ho =>
    rename_i pre ev post g₀ g
    have hg : ({} : House σ).strictRun x (pre ++ [ev]) = some g := by
      rw [Model.House.strictRun_append, h2]
      simp only [Option.bind_some, House.strictRun, h4]
    refine ⟨pre, ev, post, g₀, g, h1, h2, h3, hg, h5, ?_, ?_, ?_, ?_, h9⟩
    · rw [h6]
      refine pointwise_map fun s hs => ⟨rfl, ?_⟩
      show s.ch.s.dropChild.log = _
      rw [dropChild_kills, (session_running hx hg hs).1, childCount]
      cases s.ch.s.child <;> simp
    · rw [h7]
      exact pointwise_map fun t _ => tunnel_ends t
    · rw [h8]
      exact pointwise_map fun c _ => ⟨tunnel_ends c.line, rfl⟩
    · rw [h8]; rfl

/-- **C114.** And that is all: whatever happens afterwards, the connection does not come back, nothing more is sent to the client, nothing is
started, and nothing is forwarded. -/
theorem C114_forever (hx : EnvOk x.host.server.trans) {evs : List HouseEvent} {h : House σ}
    (hr : ({} : House σ).fullRun x evs = some h) (hl : h.server.live = false) (more : List HouseEvent) :
    ∃ h', ({} : House σ).fullRun x (evs ++ more) = some h' ∧ h'.server.live = false ∧ h'.sessions = h.sessions ∧
      h'.tunnels = h.tunnels ∧ h'.board = h.board ∧ packetsSent h'.server.trans.posts = packetsSent h.server.trans.posts := by
  have ho : House.Over h := by
    cases full_phase hx hr with
    | alive h1 _ => rw [h1] at hl; cases hl
    | over _ _ _ _ _ _ _ _ _ ho => exact ho
  induction more using Aux.snoc_ind with
  | h0 => exact ⟨h, by rw [List.append_nil]; exact hr, hl, rfl, rfl, rfl, rfl⟩
  | h1 more ev ih =>
    obtain ⟨h', a1, a2, a3, a4, a5, a6⟩ := ih
    obtain ⟨h'', b1, _⟩ := full_ok (x := x) hx (evs ++ (more ++ [ev]))
    have b2 := b1
    rw [← List.append_assoc, Model.House.fullRun_append, a1] at b2
    simp only [Option.bind_some, House.fullRun, Option.bind_fun_some] at b2
    have ho' : House.Over h' := by
      cases full_phase hx a1 with
      | alive h1 _ => rw [h1] at a2; cases a2
      | over _ _ _ _ _ _ _ _ _ ho => exact ho
    obtain ⟨c1, c2, c3, c4, c5⟩ := ho'.fullStep ev b2
    exact ⟨h'', b1, c1.dead, c2.trans a3, c3.trans a4, c4.trans a5, c5.trans a6⟩

/-- **C114.** Also when the server has closed only one session, it has no process any more. -/
theorem C114_closed_session (hx : EnvOk x.host.server.trans) {evs : List HouseEvent} {h : House σ}
    (hr : ({} : House σ).fullRun x evs = some h) {s : Session} (hs : s ∈ h.sessions) (hc : s.ch.stop = some .channel) :
    running s.ch.s.log = 0 := by
  cases hl : h.server.live with
  | false => exact ((C114_nothing_left hx hr hl).1 s hs).1
  | true =>
    obtain ⟨h1, h2⟩ := session_running hx (C114_before hx hr hl) hs
    rw [h1, childCount, h2 hc]
    rfl

/-- Non-vacuity (C114): as in C113, with a session, a connection of the client and one to the client.  Until the end all of them exist… -/
example : EnvOk demoCourt.host.server.trans ∧
    (({} : House (Nat × List Bytes)).fullRun demoCourt demoParty).map (fun h =>
      (h.server.live, h.sessions.map (fun s => running s.ch.s.log), h.board.fw.listeners.length)) = some (true, [1], 1) :=
  ⟨demoCourt_ok, by decide +kernel⟩

/-- … then the client makes a mistake: the process is killed, and the connection which still existed is closed. -/
example :
    (({} : House (Nat × List Bytes)).fullRun demoCourt (demoParty ++ demoSlip)).map (fun h =>
      (h.server.live, h.sessions.map (fun s => decide (s.ch.s.log.getLast? = some .killed)),
       h.tunnels.map (fun t => t.relay.any fun r => decide (r.log = [.client [3, 6], .toHost [3, 6], .clientCloses, .closes])) ++
       h.board.calls.map (fun c => c.line.relay.any fun r => decide (r.log =
         [.client [4, 5], .toHost [4, 5], .host [7, 8], .toClient [7, 8], .dies])))) =
      some (false, [true], [true, true]) := by
  decide +kernel

/-- … and what the other end of it, or the process, would send afterwards goes nowhere. -/
example :
    (({} : House (Nat × List Bytes)).fullRun demoCourt (demoParty ++ demoSlip ++
        [.desk (.relay 0 (.hostSends [1])), .desk (.relay 0 (.ready none true 0 false)), .session 0 (.writes .stdout [9]),
         .session 0 (.pipeReady .stdout 100)])).map (fun h =>
      (h.server.live, (packetsSent h.server.trans.posts).getLast?, h.sessions.map (fun s => decide (s.ch.s.log.getLast? = some .killed)))) =
      some (false, some (disconnectMessage 2 (ascii "Bad channel")), [true]) := by
  decide +kernel

/-- … likewise if the client just goes away. -/
example :
    (({} : House (Nat × List Bytes)).fullRun demoCourt (demoParty ++ [.server (.other .closed) { number := 3 }])).map (fun h =>
      (h.server.live, h.sessions.map (fun s => decide (s.ch.s.log.getLast? = some .killed)),
       h.board.calls.map (fun c => c.line.relay.any fun r => decide (r.log.getLast? = some .dies)))) =
      some (false, [true], [true]) := by
  decide +kernel

/-- … if the process ends by itself, and the server closes the session, it is not killed. -/
example :
    (({} : House (Nat × List Bytes)).fullRun demoCourt (demoParty ++
        [.session 0 .exited, .session 0 (.closes .stdout), .session 0 (.pipeReady .stdout 1), .session 0 (.closes .stderr),
         .session 0 (.pipeReady .stderr 1)])).map (fun h =>
      (h.server.live, h.sessions.map (fun s => decide (s.ch.stop = some .channel ∧ SessEntry.killed ∉ s.ch.s.log)),
       h.sessions.map (fun s => running s.ch.s.log))) =
      some (true, [true], [0]) := by
  decide +kernel

end Lukko
