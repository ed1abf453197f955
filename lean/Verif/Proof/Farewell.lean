import Verif.Model.Farewell
import Verif.Proof.Strict
import Verif.Prop.Reverse
/-
  The end of a connection: nothing is left, and nothing happens any more.
-/
namespace Lukko
open Spec Model

variable {σ : Type} {x : HouseEnv σ}

/-! ### The layers below -/

theorem writable_sends {e : KexEnv} {y : KxSys} {more : Bool} {p : Bytes} :
    Entry.sent p ∉ (y.step e (.writable more)).kx.log.drop y.kx.log.length := by
  unfold KxSys.step
  cases y.stop with
  | some _ => simp
  | none =>
    simp only [Kx.onBufferedWrite]
    cases hb : y.kx.writeBlocked && !({ y.kx with writeBlocked := false } : Kx).isRekeying <;> cases more <;>
      simp only [cond_true, cond_false] <;>
      first
      | (simp [Kx.emit]; done)
      | (split <;> simp [Kx.emit])
      | (simp only [Kx.emit]
         generalize Kx.isRekeying _ = b
         cases b <;> simp)

theorem dead_io {tx : TransEnv σ} {t t' : Model.Trans σ} {ev : TransEvent} (hio : ev.isIo = true) (hn : ev.needsLive = false)
    (h : t.step tx ev = some t') : packetsSent t'.posts = packetsSent t.posts ∧ (t'.live = true → t.live = true) := by
  refine ⟨?_, (io_posts hio h).2⟩
  cases ev with
  | version | feed | rekeyTimer => cases hn
  | ready | send | authenticated => cases hio
  | inBegin | inLoop | inEnd => obtain ⟨i, rfl⟩ := input_only h; rfl
  | outBegin | outEncrypt | outEnd => obtain ⟨i, rfl⟩ := output_only h; rfl
  | writable w =>
    simp only [Trans.step] at h
    cases hc : t.closed with
    | true => rw [hc] at h; cases h; rfl
    | false =>
      rw [hc, cond_false] at h
      unfold Trans.flush at h
      obtain ⟨t₁, ha, h⟩ := Option.bind_eq_some_iff.mp h
      obtain ⟨t₂, ho, h⟩ := Option.map_eq_some_iff.mp h
      obtain ⟨_, _, ps, c1, c2, _⟩ := absorb_posts ha
      obtain ⟨o, rfl⟩ := output_only ho
      subst h
      show packetsSent t₁.posts = _
      rw [c1, packetsSent_append]
      have : packetsSent ps = [] := by
        refine List.filterMap_eq_nil_iff.mpr fun p hp => ?_
        cases p with
        | packet p => exact absurd (c2 p hp) writable_sends
        | _ => rfl
      rw [this, List.append_nil]

/-- A connection which has ended sends nothing, and does not begin again. -/
theorem dead_server {sx : ServerEnv σ} {s s' : Server σ} {ev : ServerEvent} (hd : s.live = false) (h : s.step sx ev = some s') :
    s'.live = false ∧ packetsSent s'.trans.posts = packetsSent s.trans.posts := by
  have stay : some s = some s' → s'.live = false ∧ packetsSent s'.trans.posts = packetsSent s.trans.posts := by
    intro h
    cases h
    exact ⟨hd, rfl⟩
  cases ev with
  | ready delay => simp only [Server.step, hd, cond_false] at h; exact stay h
  | other ev => simp only [Server.step, hd, Bool.false_and, cond_false] at h; exact stay h
  | send p => simp only [Server.step, hd, Bool.false_and, cond_false] at h; exact stay h
  | io ev =>
    simp only [Server.step] at h
    cases hg : ev.isIo && (s.live || !ev.needsLive) with
    | false => rw [hg] at h; exact stay h
    | true =>
      rw [hg] at h
      rw [hd, Bool.false_or, Bool.and_eq_true, Bool.not_eq_true'] at hg
      obtain ⟨t, h1, h2⟩ := Option.bind_eq_some_iff.mp h
      obtain ⟨g1, g2⟩ := dead_io hg.1 hg.2 h1
      unfold Server.settle at h2
      have ha : (s.auth.authenticated && !s.auth.authenticated) = false := by simp
      simp only [ha, cond_false, Option.bind_some, List.drop_length, List.filterMap_nil, Trans.sendAll, Option.map_some,
        Option.some.injEq] at h2
      subst h2
      refine ⟨?_, g1⟩
      cases ht : t.live with
      | false => simp [Server.live, ht]
      | true =>
        have hs : s.auth.stop = true := by
          simpa [Server.live, g2 ht] using hd
        simp [Server.live, hs]

/-! ### What is left of the channels -/

/-- There is nothing behind this session any more. -/
structure Session.Over (s : Session) : Prop where
  shut : s.isOpen = false
  stop : s.ch.stop ≠ none
  child : s.ch.s.child = none

structure Tunnel.Over (t : Tunnel) : Prop where
  shut : t.isOpen = false
  stop : ∀ r, t.relay = some r → r.ch.stop ≠ none

/-- Nothing is left. -/
structure House.Over (h : House σ) : Prop where
  dead : h.server.live = false
  sessions : ∀ s ∈ h.sessions, Session.Over s
  tunnels : ∀ t ∈ h.tunnels, Tunnel.Over t
  calls : ∀ c ∈ h.board.calls, Tunnel.Over c.line
  pending : h.board.fw.pending = []
  listeners : h.board.fw.listeners = []
  waiting : h.board.fw.waiting = []

theorem Session.destroy_over (s : Session) : Session.Over s.destroy where
  shut := rfl
  stop := by simp only [Session.destroy]; cases s.ch.stop <;> simp
  child := dropChild_child _

theorem Session.Over.destroy {s : Session} (h : Session.Over s) : s.destroy = s := by
  obtain ⟨h1, h2, h3⟩ := h
  have e1 : s.ch.s.dropChild = s.ch.s := by unfold Sess.dropChild; rw [h3]
  have e2 : s.ch.stop.or (some .connection) = s.ch.stop := by
    cases hs : s.ch.stop with
    | none => exact absurd hs h2
    | some v => rfl
  unfold Session.destroy
  rw [e1, e2, ← h1]

theorem Session.Over.handle {s : Session} (h : Session.Over s) (ev : SessEvent) : s.handle ev = s := by
  unfold Session.handle
  have e1 : s.ch.step s.cfg ev = s.ch := by
    unfold SessCh.step
    cases hs : s.ch.stop with
    | none => exact absurd hs h.stop
    | some v => rfl
  rw [e1, h.shut, Bool.false_and, ← h.shut]

theorem Relay.destroy_stop (r : Relay) : r.destroy.ch.stop ≠ none := by
  unfold Relay.destroy
  cases h : r.ch.stop <;> simp [h]

theorem Tunnel.destroy_over (t : Tunnel) : Tunnel.Over t.destroy where
  shut := rfl
  stop := by
    intro r hr
    obtain ⟨q, _, rfl⟩ := Option.map_eq_some_iff.mp hr
    exact Relay.destroy_stop q

theorem Tunnel.Over.destroy {t : Tunnel} (h : Tunnel.Over t) : t.destroy = t := by
  have e : t.relay.map Relay.destroy = t.relay := by
    cases hr : t.relay with
    | none => rfl
    | some r =>
      simp only [Option.map_some, Option.some.injEq]
      unfold Relay.destroy
      cases hs : r.ch.stop with
      | none => exact absurd hs (h.stop r hr)
      | some v => rfl
  unfold Tunnel.destroy
  rw [e, ← h.shut]

theorem Tunnel.Over.handle {t : Tunnel} (h : Tunnel.Over t) (nd : Bool) (ev : RelayEvent) : t.handle nd ev = t := by
  unfold Tunnel.handle
  cases hr : t.relay with
  | none => rfl
  | some r =>
    have e : r.step nd ev = r := by
      unfold Relay.step
      cases hs : r.ch.stop with
      | none => exact absurd hs (h.stop r hr)
      | some v => rfl
    have e2 : relayMessages t.peer r r = [] := by simp [relayMessages]
    simp only [e, e2, h.shut, Bool.false_and, List.append_nil]
    rw [← hr, ← h.shut]

theorem Tunnel.Over.connected {t : Tunnel} (h : Tunnel.Over t) : t.connected = t := by
  unfold Tunnel.connected
  split
  · rfl
  · rw [h.shut]; rfl

theorem Tunnel.Over.failed {t : Tunnel} (h : Tunnel.Over t) (text : Bytes) : t.failed text = t := by
  unfold Tunnel.failed
  split
  · rfl
  · rw [h.shut]; rfl

theorem modify_same {α : Type} {f : α → α} : ∀ {l : List α} (i : Nat), (∀ a ∈ l, f a = a) → l.modify i f = l
  | [], i, _ => by cases i <;> rfl
  | a :: l, 0, h => by rw [List.modify_zero_cons, h a (by simp)]
  | a :: l, i + 1, h => by rw [List.modify_succ_cons, modify_same i fun b hb => h b (by simp [hb])]

theorem map_same {α : Type} {f : α → α} {l : List α} (h : ∀ a ∈ l, f a = a) : l.map f = l := by
  rw [List.map_congr_left h, List.map_id']

/-- Nothing happens to what is not there. -/
theorem House.Over.happens {h : House σ} (hi : House.Over h) (nd : Bool) (ev : DeskEvent) : h.board.happens nd ev = h.board := by
  cases ev with
  | server => rfl
  | bound n res => simp only [Board.happens, Rfw.bound, hi.pending, List.find?_nil]
  | accept i number origin originPort =>
    simp only [Board.happens, Board.accept, hi.listeners]
    rfl
  | hangup i =>
    simp only [Board.happens]
    split
    · rfl
    · simp only [Rfw.resolve, hi.waiting, List.any_nil, cond_false]
  | relay i ev =>
    simp only [Board.happens]
    rw [modify_same]
    intro c hc
    cases ev.isLocal with
    | false => rfl
    | true => simp only [cond_true, (hi.calls c hc).handle]

/-- Nothing happens any more. -/
theorem House.Over.step {h h' : House σ} (hi : House.Over h) {ev : HouseEvent} (hs : h.step x ev = some h') :
    House.Over h' ∧ h'.sessions = h.sessions ∧ h'.tunnels = h.tunnels ∧ h'.board = h.board ∧
      packetsSent h'.server.trans.posts = packetsSent h.server.trans.posts ∧
      ∃ tail, h'.server.auth.log = h.server.auth.log ++ tail ∧ tail.all plainEntry = true := by
  have key : ∀ {s : Server σ}, s.live = false → packetsSent s.trans.posts = packetsSent h.server.trans.posts →
      (∃ tail, s.auth.log = h.server.auth.log ++ tail ∧ tail.all plainEntry = true) →
      h.settle x s h.sessions h.tunnels h.board = some h' →
      House.Over h' ∧ h'.sessions = h.sessions ∧ h'.tunnels = h.tunnels ∧ h'.board = h.board ∧
      packetsSent h'.server.trans.posts = packetsSent h.server.trans.posts ∧
      ∃ tail, h'.server.auth.log = h.server.auth.log ++ tail ∧ tail.all plainEntry = true := by
    intro s hl hp hlog hs
    unfold House.settle at hs
    rw [newMessages_same, tunnelMessages_same, callMessages_same, hi.dead] at hs
    simp only [List.append_nil, List.map_nil, Server.run, Option.map_some, Bool.false_and, cond_false, Option.some.injEq] at hs
    subst hs
    exact ⟨⟨hl, hi.sessions, hi.tunnels, hi.calls, hi.pending, hi.listeners, hi.waiting⟩, rfl, rfl, rfl, hp, hlog⟩
  have triv : ∃ tail, h.server.auth.log = h.server.auth.log ++ tail ∧ tail.all plainEntry = true := ⟨[], by simp, rfl⟩
  cases ev with
  | server ev c =>
    obtain ⟨s, h1, h2⟩ := Option.bind_eq_some_iff.mp hs
    obtain ⟨tail, g1, g2⟩ := dead_step hi.dead h1
    obtain ⟨g3, g4⟩ := dead_server hi.dead h1
    unfold House.deliver at h2
    rw [g1, List.drop_left, deliverAll_plain g2, routeAll_plain g2, hi.dead, cond_false] at h2
    exact key g3 g4 ⟨tail, g1, g2⟩ h2
  | session i ev =>
    simp only [House.step] at hs
    cases hl : ev.isLocal with
    | false =>
      rw [hl] at hs; cases hs
      exact ⟨hi, rfl, rfl, rfl, rfl, triv⟩
    | true =>
      rw [hl, cond_true, modify_same i fun s hs => (hi.sessions s hs).handle ev] at hs
      exact key hi.dead rfl triv hs
  | tunnel ev =>
    simp only [House.step] at hs
    rw [modify_same _ ?_] at hs
    · exact key hi.dead rfl triv hs
    · intro t ht
      have ho := hi.tunnels t ht
      cases ev with
      | server => rfl
      | connected i => exact ho.connected
      | failed i text => exact ho.failed text
      | relay i ev =>
        simp only [HubEvent.onTunnel]
        cases ev.isLocal with
        | false => rfl
        | true => exact ho.handle _ _
  | desk ev =>
    simp only [House.step, hi.happens] at hs
    exact key hi.dead rfl triv hs

theorem judgeAll_plain {h : House σ} {es : List AuthEntry} (he : es.all plainEntry = true) : h.judgeAll es = .fine := by
  induction es with
  | nil => rfl
  | cons e es ih =>
    rw [List.all_cons, Bool.and_eq_true] at he
    cases e <;> first | (cases he.1; done) | exact ih he.2

theorem House.Over.threw {h : House σ} (hi : House.Over h) : h.threw = false := by
  simp only [House.threw, Bool.or_eq_false_iff, List.any_eq_false, Bool.and_eq_true, not_and]
  refine ⟨⟨fun s hs h1 => ?_, fun s hs h1 => ?_⟩, fun s hs h1 => ?_⟩
  · rw [(hi.sessions s hs).shut] at h1; cases h1
  · rw [(hi.tunnels s hs).shut] at h1; cases h1
  · rw [(hi.calls s hs).shut] at h1; cases h1

theorem House.Over.strictStep {h h' : House σ} (hi : House.Over h) {ev : HouseEvent} (hs : h.strictStep x ev = some h') :
    House.Over h' ∧ h'.sessions = h.sessions ∧ h'.tunnels = h.tunnels ∧ h'.board = h.board ∧
      packetsSent h'.server.trans.posts = packetsSent h.server.trans.posts := by
  obtain ⟨g1, s1, r1⟩ := Option.bind_eq_some_iff.mp hs
  obtain ⟨a1, a2, a3, a4, a5, tail, a6, a7⟩ := hi.step s1
  rw [a6, List.drop_left, judgeAll_plain a7] at r1
  simp only [Verdict.events, House.run, Option.bind_some] at r1
  rw [a1.threw] at r1
  cases r1
  exact ⟨a1, a2, a3, a4, a5⟩

theorem House.Over.farewell {h : House σ} (hi : House.Over h) : h.farewell = h := by
  unfold House.farewell
  rw [map_same fun s hs => (hi.sessions s hs).destroy, map_same fun s hs => (hi.tunnels s hs).destroy,
    map_same (f := Incoming.destroy) fun c hc => by simp only [Incoming.destroy, (hi.calls c hc).destroy]]

/-- What a connection leaves behind when it ends. -/
theorem farewell_over (hx : EnvOk x.host.server.trans) {h : House σ} (hi : HoInv x h) (hd : h.server.live = false) :
    House.Over h.farewell := by
  obtain ⟨evs, r⟩ := hi.desk
  have hn := ((DInv.of_run (x := x.hub) hx r).over hd).none
  refine ⟨hd, fun s hs => ?_, fun s hs => ?_, fun s hs => ?_, hn.1, hn.2.1, hn.2.2⟩
  · obtain ⟨q, _, rfl⟩ := List.mem_map.mp hs
    exact Session.destroy_over q
  · obtain ⟨q, _, rfl⟩ := List.mem_map.mp hs
    exact Tunnel.destroy_over q
  · obtain ⟨q, _, rfl⟩ := List.mem_map.mp hs
    exact Tunnel.destroy_over q.line

theorem HoInv.strictStep (hx : EnvOk x.host.server.trans) {h : House σ} (hi : HoInv x h) (ev : HouseEvent) :
    ∃ h', h.strictStep x ev = some h' ∧ HoInv x h' := by
  obtain ⟨h1, e1, i1⟩ := hi.step hx ev
  obtain ⟨h2, e2, i2⟩ := HoInv.run hx (h.judgeAll (h1.server.auth.log.drop h.server.auth.log.length)).events i1
  obtain ⟨h3, e3, i3⟩ := HoInv.run hx (bif h2.threw then Verdict.close else .fine).events i2
  exact ⟨h3, by simp only [House.strictStep, e1, e2, e3, Option.bind_some], i3⟩

theorem Model.House.strictRun_append {a b : List HouseEvent} : ∀ {h : House σ},
    h.strictRun x (a ++ b) = (h.strictRun x a).bind fun h => h.strictRun x b := by
  induction a with
  | nil => intro h; rfl
  | cons ev a ih =>
    intro h
    simp only [List.cons_append, House.strictRun]
    cases h.strictStep x ev with
    | none => rfl
    | some h' => simp only [Option.bind_some]; exact ih

theorem Model.House.fullRun_append {a b : List HouseEvent} : ∀ {h : House σ},
    h.fullRun x (a ++ b) = (h.fullRun x a).bind fun h => h.fullRun x b := by
  induction a with
  | nil => intro h; rfl
  | cons ev a ih =>
    intro h
    simp only [List.cons_append, House.fullRun]
    cases h.fullStep x ev with
    | none => rfl
    | some h' => simp only [Option.bind_some]; exact ih

/-- The two phases of a connection. -/
inductive Phase (x : HouseEnv σ) (evs : List HouseEvent) (h : House σ) : Prop
  | alive : h.server.live = true → ({} : House σ).strictRun x evs = some h → Phase x evs h
  /-- it has ended with `ev`; then it was `g` -/
  | over {pre : List HouseEvent} {ev : HouseEvent} {post : List HouseEvent} {g₀ g : House σ} : evs = pre ++ ev :: post →
      ({} : House σ).strictRun x pre = some g₀ → g₀.server.live = true → g₀.strictStep x ev = some g →
      g.server.live = false → h.sessions = g.farewell.sessions → h.tunnels = g.farewell.tunnels → h.board = g.farewell.board →
      packetsSent h.server.trans.posts = packetsSent g.server.trans.posts → House.Over h → Phase x evs h

theorem House.Over.fullStep {h : House σ} (hi : House.Over h) (ev : HouseEvent) {h' : House σ} (hs : h.fullStep x ev = some h') :
    House.Over h' ∧ h'.sessions = h.sessions ∧ h'.tunnels = h.tunnels ∧ h'.board = h.board ∧
      packetsSent h'.server.trans.posts = packetsSent h.server.trans.posts := by
  obtain ⟨g, h1, h2⟩ := Option.map_eq_some_iff.mp hs
  have hg := hi.strictStep h1
  rw [hg.1.dead, cond_false, hg.1.farewell] at h2
  subst h2
  exact hg

/-- The events can go on. -/
theorem House.Over.goes (hx : EnvOk x.host.server.trans) {h : House σ} (hi : House.Over h) (hS : SInv x.host.server h.server)
    (ev : HouseEvent) : ∃ h', h.fullStep x ev = some h' ∧ SInv x.host.server h'.server := by
  have settles : ∀ s : Server σ, h.settle x s h.sessions h.tunnels h.board = some { h with server := s } := by
    intro s
    unfold House.settle
    rw [newMessages_same, tunnelMessages_same, callMessages_same, hi.dead]
    simp only [List.append_nil, List.map_nil, Server.run, Option.map_some, Bool.false_and, cond_false]
  have steps : ∃ s, h.step x ev = some { h with server := s } ∧ SInv x.host.server s := by
    cases ev with
    | server ev c =>
      obtain ⟨s, h1, h2⟩ := hS.step hx ev
      obtain ⟨tail, g1, g2⟩ := dead_step hi.dead h1
      refine ⟨s, ?_, h2⟩
      simp only [House.step, h1, Option.bind_some, House.deliver]
      rw [g1, List.drop_left, deliverAll_plain g2, routeAll_plain g2, hi.dead, cond_false]
      exact settles s
    | session i ev =>
      refine ⟨h.server, ?_, hS⟩
      simp only [House.step]
      cases ev.isLocal with
      | false => rfl
      | true =>
        rw [cond_true, modify_same i fun s hs => (hi.sessions s hs).handle ev]
        exact settles _
    | tunnel ev =>
      refine ⟨h.server, ?_, hS⟩
      simp only [House.step]
      rw [modify_same _ ?_]
      · exact settles _
      · intro t ht
        have ho := hi.tunnels t ht
        cases ev with
        | server => rfl
        | connected i => exact ho.connected
        | failed i text => exact ho.failed text
        | relay i ev =>
          simp only [HubEvent.onTunnel]
          cases ev.isLocal with
          | false => rfl
          | true => exact ho.handle _ _
    | desk ev =>
      refine ⟨h.server, ?_, hS⟩
      simp only [House.step, hi.happens]
      exact settles _
  obtain ⟨s, h1, h2⟩ := steps
  obtain ⟨a1, _, _, _, _, tail, a6, a7⟩ := hi.step h1
  have e : h.strictStep x ev = some { h with server := s } := by
    unfold House.strictStep
    rw [h1, Option.bind_some, a6, List.drop_left, judgeAll_plain a7]
    simp only [Verdict.events, House.run, Option.bind_some]
    rw [a1.threw]
    rfl
  refine ⟨{ h with server := s }, ?_, h2⟩
  unfold House.fullStep
  rw [e, Option.map_some, a1.dead, cond_false, a1.farewell]

theorem full_ok (hx : EnvOk x.host.server.trans) (evs : List HouseEvent) : ∃ h, ({} : House σ).fullRun x evs = some h ∧ Phase x evs h ∧
    (h.server.live = true → HoInv x h) ∧ SInv x.host.server h.server := by
  induction evs using Aux.snoc_ind with
  | h0 => exact ⟨{}, rfl, .alive rfl rfl, fun _ => HoInv.init, SInv.init _⟩
  | h1 evs ev ih =>
    obtain ⟨h, hr, hp, hi, hS⟩ := ih
    have hrun : ∀ {h'}, h.fullStep x ev = some h' → ({} : House σ).fullRun x (evs ++ [ev]) = some h' := by
      intro h' e
      rw [House.fullRun_append, hr]
      simp only [Option.bind_some, House.fullRun, e]
    cases hp with
    | alive hl hs =>
      obtain ⟨g, e, ig⟩ := (hi hl).strictStep hx ev
      have hsg : ({} : House σ).strictRun x (evs ++ [ev]) = some g := by
        rw [House.strictRun_append, hs]
        simp only [Option.bind_some, House.strictRun, e]
      have hSg : SInv x.host.server g.server := by
        obtain ⟨es, r⟩ := ig.host
        exact (HInv.of_run (x := x.host) hx r).server
      cases hg : g.server.live with
      | true =>
        refine ⟨g, hrun ?_, .alive hg hsg, fun _ => ig, hSg⟩
        simp only [House.fullStep, e, Option.map_some, hg, cond_true]
      | false =>
        refine ⟨g.farewell, hrun ?_, .over (pre := evs) (ev := ev) (post := []) rfl hs hl e hg rfl rfl rfl rfl (farewell_over hx ig hg),
          fun hz => ?_, hSg⟩
        · simp only [House.fullStep, e, Option.map_some, hg, cond_false]
        · have hz : g.server.live = true := hz
          rw [hg] at hz; cases hz
    | over he hs0 hl0 hst hd h1 h2 h3 h4 ho =>
      obtain ⟨h', e, hS'⟩ := ho.goes hx hS ev
      obtain ⟨a1, a2, a3, a4, a5⟩ := ho.fullStep ev e
      refine ⟨h', hrun e, .over (post := _ ++ [ev]) (by rw [he]; simp only [List.append_assoc, List.cons_append]; rfl) hs0 hl0 hst hd (a2.trans h1) (a3.trans h2) (a4.trans h3)
        (a5.trans h4) a1, fun hz => ?_, hS'⟩
      rw [a1.dead] at hz; cases hz

theorem full_phase (hx : EnvOk x.host.server.trans) {evs : List HouseEvent} {h : House σ} (hr : ({} : House σ).fullRun x evs = some h) :
    Phase x evs h := by
  obtain ⟨h', h1, h2, _⟩ := full_ok (x := x) hx evs
  rw [hr] at h1
  cases h1
  exact h2

/-- When the server has closed a session, it has no process. -/
def Neat (y : SessCh) : Prop := y.stop = some .channel → y.s.child = none

theorem Neat.of {y : SessCh} (h : y.stop ≠ some .channel) : Neat y := fun h' => absurd h' h

theorem Neat.still {y : SessCh} (h : y.stop = none) : Neat y := .of (by rw [h]; simp)

theorem Neat.halt {y : SessCh} {st : SessStop} (h : st ≠ .channel) : Neat (y.halt st) := .of (by simp [SessCh.halt, h])

theorem Neat.close (y : SessCh) : Neat y.close := fun _ => dropChild_child _

theorem Neat.closeIfInactive {y : SessCh} (h : y.stop = none) : Neat y.closeIfInactive := by
  unfold SessCh.closeIfInactive
  cases !(y.s.stdout.isSome || y.s.stderr.isSome || y.s.tty.isSome || y.s.child.isSome)
  · exact .still h
  · exact .close y

theorem Neat.maybeSendEof {y : SessCh} (h : y.stop = none) : Neat y.maybeSendEof := by
  unfold SessCh.maybeSendEof
  cases y.s.stdout.isSome || y.s.stderr.isSome || y.s.tty.isSome
  · exact .closeIfInactive h
  · exact .still h

theorem Neat.ofBuf {r : Sess × Buf × Option BufStop} : Neat (.ofBuf r) := by
  obtain ⟨s, b, st⟩ := r
  refine .of ?_
  cases st with
  | none => simp [SessCh.ofBuf]
  | some st => cases st <;> simp [SessCh.ofBuf, BufStop.toSess]

theorem Neat.refuse {y : SessCh} (h : y.stop = none) (v text) : Neat (y.refuse v text) := by
  unfold SessCh.refuse
  cases v <;> exact .still h

theorem Neat.execGit {y : SessCh} (h : y.stop = none) (a b) : Neat (y.execGit a b) := by
  unfold SessCh.execGit
  split <;> exact .still h

theorem Neat.exec {cfg} {y : SessCh} (h : y.stop = none) (c) : Neat (y.exec cfg c) := by
  unfold SessCh.exec
  split
  · cases cfg.exec
    · exact .refuse h _ _
    · exact .still h
  · cases cfg.exec
    · simp only [cond_false]
      split
      · exact .still h
      · exact .refuse h _ _
      · unfold SessCh.execOther
        split
        · exact .execGit h _ _
        · split
          · exact .execGit h _ _
          · exact .refuse h _ _
    · exact .still h

theorem Neat.request {cfg} {y : SessCh} (h : y.stop = none) (name data ok) : Neat (y.request cfg name data ok) := by
  unfold SessCh.request
  cases y.s.child.isSome
  · simp only [cond_false]
    split
    · unfold SessCh.execRequest
      split
      · exact .halt (by simp)
      · split
        · exact .refuse h _ _
        · exact .exec h _
    split
    · exact .exec h _
    split
    · unfold SessCh.subsystem
      split
      · exact .halt (by simp)
      · split
        · cases !cfg.sftp <;> cases y.s.tty.isSome <;> exact .still h
        · exact .still h
    split
    · unfold SessCh.ptyReq
      cases !cfg.exec || y.s.restr.noTerminal
      · simp only [cond_false]
        split
        · exact .halt (by simp)
        · cases !ok
          · simp only [cond_false]
            split
            · exact .halt (by simp)
            · exact .still h
          · exact .halt (by simp)
      · exact .still h
    split
    · unfold SessCh.envRequest
      cases !cfg.exec
      · simp only [cond_false]
        split
        · exact .halt (by simp)
        · split
          · exact .halt (by simp)
          · exact .still h
      · exact .still h
    split <;> exact .still h
  · simp only [cond_true]
    unfold SessCh.lateRequest
    split
    · cases !y.s.tty.isSome
      · simp only [cond_false]
        split
        · exact .halt (by simp)
        · cases ok
          · exact .halt (by simp)
          · exact .still h
      · exact .still h
    · exact .still h

theorem Neat.launch {cfg} {y : SessCh} (h : y.stop = none) (id p o t r) : Neat (y.launch cfg id p o t r) := by
  unfold SessCh.launch
  split
  · exact Neat.refuse (by exact h) _ _
  · exact .still h

theorem Neat.enqueued {cfg} {y : SessCh} (h : y.stop = none) (id r) : Neat (y.enqueued cfg id r) := by
  have service : ∀ p, Neat (y.resumeService cfg id p r) := by
    intro p
    unfold SessCh.resumeService
    split
    · exact Neat.refuse (by exact h) _ _
    · split
      · exact .halt (by simp)
      · split
        · exact Neat.refuse (by exact h) _ _
        · exact Neat.launch (by exact h) _ _ _ _ _
  unfold SessCh.enqueued
  split
  · unfold SessCh.resumeExec
    split
    · exact .halt (by simp)
    · split
      · exact .halt (by simp)
      · exact Neat.launch (by exact h) _ _ _ _ _
  · exact service _
  · exact service _
  · unfold SessCh.resumeSftp
    split
    · exact .halt (by simp)
    · cases y.s.tty.isSome && !cfg.ndebug
      · simp only [cond_false]
        split
        · exact .halt (by simp)
        · exact Neat.launch (by exact h) _ _ _ _ _
      · exact .halt (by simp)
  · exact .still h

theorem Neat.readSource {cfg} {y : SessCh} (h : y.stop = none) (f s len) : Neat (y.readSource cfg f s len) := by
  unfold SessCh.readSource
  simp only
  split
  · cases cfg.ndebug
    · exact .halt (by simp)
    · exact .maybeSendEof h
  · split
    · exact .maybeSendEof h
    · exact .still h

theorem Neat.handle {cfg} {y : SessCh} (h : y.stop = none) (ev) : Neat (y.handle cfg ev) := by
  cases ev with
  | request name data ok => exact Neat.request (by exact h) _ _ _
  | enqueued id r => exact .enqueued h _ _
  | completed id err =>
    simp only [SessCh.handle, SessCh.completed]
    split
    · split
      · split
        · exact .still h
        · exact Neat.refuse (by exact h) _ _
      · exact .still h
    · exact .still h
  | exited =>
    simp only [SessCh.handle, SessCh.exited]
    split
    · exact .still h
    · exact .closeIfInactive h
  | restricted r => exact .still h
  | recvData bs k =>
    simp only [SessCh.handle]
    split
    · exact .halt (by simp)
    · exact .ofBuf
  | recvExt n =>
    simp only [SessCh.handle]
    split
    · exact .halt (by simp)
    · exact .still h
  | recvEof => exact .ofBuf
  | recvAdjust n =>
    simp only [SessCh.handle]
    split
    · exact .halt (by simp)
    · exact .still h
  | blocked => exact .still h
  | unblocked => exact .still h
  | writes f bs => exact .still h
  | closes f => exact .still h
  | stdinReady ks =>
    simp only [SessCh.handle, SessCh.stdinReady]
    split
    · cases y.buf.enough ks
      · exact .still h
      · exact .ofBuf
    · exact .still h
  | pipeReady f len =>
    simp only [SessCh.handle]
    split
    · exact .still h
    · unfold SessCh.pipeReady
      split
      · exact .still h
      · rename_i x _
        cases x.rd && (!x.content.isEmpty || !x.writers)
        · exact .still h
        · exact .readSource h _ _ _
  | ttyReady w len =>
    simp only [SessCh.handle, SessCh.ttyReady]
    split
    · exact .still h
    · rename_i x _
      cases !(x.rd && !x.content.isEmpty) && !(y.ttyWritable w).isSome
      · simp only [cond_false]
        unfold SessCh.ttyRead
        split
        · rename_i hs
          unfold SessCh.ttyWrite at hs ⊢
          split
          · exact .still h
          · exact .ofBuf
        · rename_i hs
          split
          · exact .still hs
          · cases x.rd && !x.content.isEmpty
            · exact .still hs
            · exact .readSource hs _ _ _
      · cases x.writers
        · exact .maybeSendEof h
        · exact .still h
  | gone => exact .halt (by simp)

theorem closed_neat (cfg r w evs) : Neat (SessCh.run cfg (SessCh.init r w) evs) := by
  induction evs using Aux.snoc_ind with
  | h0 => exact .still rfl
  | h1 evs ev ih =>
    rw [SessCh.run_snoc]
    unfold SessCh.step
    cases hs : (SessCh.run cfg (SessCh.init r w) evs).stop with
    | none => exact .handle hs ev
    | some st => exact ih

end Lukko
