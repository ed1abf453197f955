import Verif.Proof.GatewayCall
import Verif.Prop.Caller
/-
  Invariant of a proxied connection: no assertion fails, and what one side sends is passed on to the other one.
-/
namespace Lukko
open Spec Model

variable {σ τ : Type} {x : GatewayEnv σ τ}

/-! ### Runs -/

theorem server_run_snoc {x : ServerEnv σ} {evs : List ServerEvent} {ev : ServerEvent} : ∀ {s₀ s v : Server σ},
    s₀.run x evs = some s → s.step x ev = some v → s₀.run x (evs ++ [ev]) = some v := by
  induction evs with
  | nil => intro s₀ s v h h'; cases h; simp [Server.run, h']
  | cons e evs ih =>
    intro s₀ s v h h'
    simp only [Server.run, List.cons_append, Option.bind_eq_some_iff] at h ⊢
    obtain ⟨s₁, h1, h2⟩ := h
    exact ⟨s₁, h1, ih h2 h'⟩

theorem caller_run_snoc {x : CallerEnv σ} {evs : List CallerEvent} {ev : CallerEvent} : ∀ {s₀ s v : Caller σ},
    s₀.run x evs = some s → s.step x ev = some v → s₀.run x (evs ++ [ev]) = some v := by
  induction evs with
  | nil => intro s₀ s v h h'; cases h; simp [Caller.run, h']
  | cons e evs ih =>
    intro s₀ s v h h'
    simp only [Caller.run, List.cons_append, Option.bind_eq_some_iff] at h ⊢
    obtain ⟨s₁, h1, h2⟩ := h
    exact ⟨s₁, h1, ih h2 h'⟩

/-! ### The connection of the client -/

theorem server_settle_inv {x : ServerEnv σ} {s v : Server σ} {y : Auth} (h : s.settle x y = some v) :
    v.auth = bif v.trans.live then y else y.step (s.cfg x) .closed := by
  unfold Server.settle at h
  simp only [Option.bind_eq_some_iff, Option.map_eq_some_iff] at h
  obtain ⟨t₁, -, t₂, -, rfl⟩ := h
  rfl

theorem auth_stopped {cfg} {y : Auth} (h : y.stop = true) (ev : AuthEv) : y.step cfg ev = y := by
  simp [Auth.step, h]

theorem closed_stop {cfg} {y : Auth} : (y.step cfg .closed).stop = true := by
  unfold Auth.step
  cases h : y.stop with
  | true => exact h
  | false => rfl

theorem linked_settle {x : ServerEnv σ} {s v : Server σ} {y₀ y : Auth} {said : List Bytes} (h : s.settle x y = some v)
    (hl : Linked said y₀ y) : Linked said y₀ v.auth := by
  rw [server_settle_inv h]
  cases v.trans.live with
  | true => exact hl
  | false =>
    have := hl.trans (linked_step (cfg := s.cfg x) (ev := .closed) rfl)
    rwa [List.append_nil] at this

theorem settle_stopped {x : ServerEnv σ} {s v : Server σ} {y : Auth} (h : s.settle x y = some v) (hs : y.stop = true) : v.auth = y := by
  rw [server_settle_inv h, auth_stopped hs]
  cases v.trans.live <;> rfl

theorem server_linked {x : ServerEnv σ} {s v : Server σ} {ev : ServerEvent} (h : s.step x ev = some v) (hn : ev.isTarget = false) :
    Linked [] s.auth v.auth ∧ (s.auth.stop = true → v.auth = s.auth) := by
  have same : some s = some v → Linked [] s.auth v.auth ∧ (s.auth.stop = true → v.auth = s.auth) := by
    intro h; cases h; exact ⟨.rfl', fun _ => rfl⟩
  have quiet : ∀ {t : Model.Trans σ}, ({ s with trans := t } : Server σ).settle x s.auth = some v →
      Linked [] s.auth v.auth ∧ (s.auth.stop = true → v.auth = s.auth) := fun h =>
    ⟨linked_settle h .rfl', settle_stopped h⟩
  have step : ∀ {s' : Server σ} {cfg : AuthCfg} {aev : AuthEv}, aev.isTarget = false → s'.settle x (s.auth.step cfg aev) = some v →
      Linked [] s.auth v.auth ∧ (s.auth.stop = true → v.auth = s.auth) := fun ha h =>
    ⟨linked_settle h (linked_step ha), fun hs => by rw [auth_stopped hs] at h; exact settle_stopped h hs⟩
  cases ev with
  | io ev =>
    simp only [Server.step] at h
    cases hc : ev.isIo && (s.live || !ev.needsLive) with
    | false => rw [hc] at h; exact same h
    | true =>
      rw [hc, cond_true, Option.bind_eq_some_iff] at h
      obtain ⟨t, -, h⟩ := h
      exact quiet h
  | ready d =>
    simp only [Server.step] at h
    cases hl : s.live with
    | false => rw [hl] at h; exact same h
    | true =>
      rw [hl, cond_true] at h
      unfold Server.ready at h
      simp only [Option.bind_eq_some_iff] at h
      obtain ⟨t, -, h⟩ := h
      split at h
      · rename_i m p _
        cases he : s.auth.encrypted with
        | true =>
          rw [he, cond_true] at h
          cases hie : s.trans.kx.kx.isEncrypted with
          | false => rw [hie] at h; cases h
          | true => rw [hie, cond_true] at h; exact step rfl h
        | false =>
          rw [he, cond_false] at h
          cases hb : becameEncrypted s.trans.kx.kx t.kx.kx with
          | false => rw [hb, cond_false] at h; exact quiet h
          | true =>
            rw [hb, cond_true, Option.bind_eq_some_iff] at h
            obtain ⟨y, h1, h2⟩ := h
            unfold Server.onEncrypted at h1
            simp only at h1
            cases hie : t.kx.kx.isEncrypted with
            | false => rw [hie] at h1; cases h1
            | true => rw [hie] at h1; cases h1; exact step rfl h2
      · exact quiet h
  | other aev =>
    simp only [Server.step] at h
    cases hc : s.live && aev.isOther with
    | false => rw [hc] at h; exact same h
    | true => rw [hc, cond_true] at h; exact step hn h
  | send p =>
    simp only [Server.step] at h
    cases hc : s.live && s.auth.channels with
    | false => rw [hc] at h; exact same h
    | true =>
      rw [hc, cond_true, Option.map_eq_some_iff] at h
      obtain ⟨t, -, rfl⟩ := h
      exact ⟨.rfl', fun _ => rfl⟩

/-- The client's connection is told something. -/
theorem server_told {x : ServerEnv σ} {s v : Server σ} {ev : AuthEv} (h : s.step x (.other ev) = some v) (hl : s.live = true)
    (ho : ev.isOther = true) :
    (v.auth = s.auth.step (s.cfg x) ev ∨ v.auth = (s.auth.step (s.cfg x) ev).step (s.cfg x) .closed) ∧
    (v.auth.stop = false → v.live = true) := by
  simp only [Server.step, hl, ho, Bool.and_self, cond_true] at h
  have hv := server_settle_inv h
  cases ht : v.trans.live with
  | true =>
    rw [ht, cond_true] at hv
    exact ⟨.inl hv, fun hs => Server.live_iff.mpr ⟨ht, hs⟩⟩
  | false =>
    rw [ht, cond_false] at hv
    refine ⟨.inr hv, fun hs => ?_⟩
    rw [hv, closed_stop] at hs
    cases hs

theorem username_stays {cfg cfg' : AuthCfg} {y y' : Auth} (h : ∃ evs, y = Auth.run cfg {} evs) (h' : ∃ evs, y' = Auth.run cfg' {} evs)
    (hp : ∃ es, y'.log = y.log ++ es) (ho : y.outgoing = true) (ho' : y'.outgoing = true) : y'.username = y.username := by
  obtain ⟨evs, h⟩ := h
  obtain ⟨evs', h'⟩ := h'
  have post : ∀ {c : AuthCfg} {z : Auth} {es}, z = Auth.run c {} es → z.outgoing = true → AuthPost c z := by
    intro c z es hz hout
    rcases inv_run (cfg := c) es with ⟨h1, _⟩ | h1
    · rw [← hz] at h1; rw [h1.out] at hout; cases hout
    · rw [← hz] at h1; exact h1
  obtain ⟨l, h1, -, -, -, h2⟩ := (post h ho).perms
  obtain ⟨l', h3, -, -, -, h4⟩ := (post h' ho').perms
  obtain ⟨es, hes⟩ := hp
  have h5 : .loggedIn l ∈ y'.log := by rw [hes]; exact List.mem_append_left _ h1
  have : l = l' := by
    obtain ⟨a, b, hab⟩ := List.append_of_mem h5
    have hu := (C29_login cfg' evs' (a := a) (b := b) (l := l) (by rw [← h']; exact hab)).2.2
    rw [hab] at h3
    rcases List.mem_append.mp h3 with hm | hm
    · exact absurd (List.mem_append_left _ hm) (hu l')
    · rcases List.mem_cons.mp hm with hm | hm
      · cases hm; rfl
      · exact absurd (List.mem_append_right _ hm) (hu l')
  rw [h4, h2, this]

/-! ### The connection to the target -/

theorem deliver_ok {x : CallerEnv τ} (hx : EnvOk x.trans) (hg : x.login.Good) {ps : List Bytes} : ∀ {c : Caller τ},
    (∃ evs, ({} : Caller τ).run x evs = some c) → (ps ≠ [] → c.live = true ∧ c.login.authenticated = true) →
    ∃ c', c.deliver x ps = some c' ∧ c'.given = c.given ++ ps ∧ c'.login = c.login ∧ c'.live = c.live ∧
      ∃ evs, ({} : Caller τ).run x evs = some c' := by
  induction ps with
  | nil => intro c h _; exact ⟨c, rfl, by simp, rfl, rfl, h⟩
  | cons p ps ih =>
    intro c h hp
    obtain ⟨hl, ha⟩ := hp (by simp)
    obtain ⟨evs, h⟩ := h
    have hi := CInv.of_run hx hg h
    obtain ⟨t, h1, h2, h3⟩ := hi.send hx hl ha p
    have hl' : ({ c with trans := t, given := c.given ++ [p] } : Caller τ).live = true :=
      Caller.live_iff.mpr ⟨h2, (Caller.live_iff.mp hl).2⟩
    have hr : ({} : Caller τ).run x (evs ++ [.send p]) = some { c with trans := t, given := c.given ++ [p] } := by
      refine caller_run_snoc h ?_
      simp only [Caller.step, hl, ha, Bool.and_self, cond_true, h1, Option.map_some]
    obtain ⟨c', e1, e2, e3, e4, e5⟩ := ih (c := { c with trans := t, given := c.given ++ [p] }) ⟨_, hr⟩ (fun _ => ⟨hl', ha⟩)
    refine ⟨c', ?_, by rw [e2]; simp, e3, by rw [e4, hl', hl], e5⟩
    simp only [Caller.deliver, hl, cond_true, h1, Option.bind_some, e1]

/-! ### Both -/

theorem Model.TargetCfg.Good.forUser {c : TargetCfg} (h : c.Good) (user : Bytes) : ({ c with user := user } : TargetCfg).Good :=
  ⟨h.key, h.sized, h.alg⟩

/-- What is sent to the target. -/
def Plan (log : List AuthEntry) (live : Bool) : Prop :=
  ((∀ m, .requestToTarget m ∉ log) ∧ towards log = []) ∨
  ∃ a m b, log = a ++ .requestToTarget m :: b ∧ towards a = [] ∧ (∀ m, .requestToTarget m ∉ b) ∧
    towards b <+: (clientMessages b).filter isDefined ∧ (live = true → towards b = (clientMessages b).filter isDefined)

theorem Plan.weaken {log : List AuthEntry} {live live' : Bool} (h : Plan log live) (hl : live' = true → live = true) : Plan log live' := by
  rcases h with h | ⟨a, m, b, h1, h2, h3, h4, h5⟩
  · exact .inl h
  · exact .inr ⟨a, m, b, h1, h2, h3, h4, fun h => h5 (hl h)⟩

/-- `said`: what the target has just said and the client's connection was not told yet. -/
structure GBase (x : GatewayEnv σ τ) (said : List Bytes) (s : Gateway σ τ) : Prop where
  srv : ∃ evs, ({} : Server σ).run x.server evs = some s.server
  call : ∃ evs, ({} : Caller τ).run (s.calls x) evs = some s.caller
  idle : s.server.auth.outgoing = false → s.caller = {}
  sent : s.caller.given = towards s.server.auth.log
  heard : targetSaid s.server.auth.log ++ said = targetTalk s.caller.login.log
  said : passedOn s.server.auth.log = (targetSaid s.server.auth.log).filter isDefined
  plan : Plan s.server.auth.log s.caller.live

structure GInv (x : GatewayEnv σ τ) (s : Gateway σ τ) : Prop extends GBase x [] s where
  done : s.server.auth.stop = false → s.server.auth.targetDone = s.caller.login.authenticated
  prox : s.server.auth.stop = false → s.server.auth.proxied = (s.caller.live && s.caller.login.authenticated)

structure GatewayOk (x : GatewayEnv σ τ) : Prop where
  server : EnvOk x.server.trans
  out : EnvOk x.out
  login : x.login.Good

theorem GInv.init (x : GatewayEnv σ τ) : GInv x ({} : Gateway σ τ) where
  srv := ⟨[], rfl⟩
  call := ⟨[], rfl⟩
  idle := fun _ => rfl
  sent := rfl
  heard := rfl
  said := rfl
  plan := .inl ⟨(by intro m hm; exact nomatch hm), rfl⟩
  done := fun _ => rfl
  prox := fun _ => rfl

theorem GBase.sinv (hx : GatewayOk x) {said : List Bytes} {s : Gateway σ τ} (h : GBase x said s) : SInv x.server s.server := by
  obtain ⟨evs, h⟩ := h.srv
  exact SInv.of_run hx.server h

theorem GBase.cinv (hx : GatewayOk x) {said : List Bytes} {s : Gateway σ τ} (h : GBase x said s) : CInv (s.calls x) s.caller := by
  obtain ⟨evs, h⟩ := h.call
  exact CInv.of_run hx.out (hx.login.forUser _) h

theorem proxied_request {cfg : AuthCfg} {y : Auth} (h : ∃ evs, y = Auth.run cfg {} evs) (hp : y.proxied = true) :
    ∃ p, .requestToTarget p ∈ y.log := by
  obtain ⟨evs, h⟩ := h
  rcases inv_run (cfg := cfg) evs with ⟨h1, _⟩ | h1
  · rw [← h] at h1; rw [h1.prox] at hp; cases hp
  · rw [← h] at h1
    obtain ⟨-, p, h2, -⟩ := h1.prox hp
    exact ⟨p, h2⟩

/-- The same caller, seen from the new state of the client's connection. -/
theorem GBase.recall (hx : GatewayOk x) {said : List Bytes} {s : Gateway σ τ} (h : GBase x said s) {v : Server σ} {ev : ServerEvent}
    (hv : s.server.step x.server ev = some v) (hlog : ∃ es, v.auth.log = s.server.auth.log ++ es)
    (hout : s.server.auth.outgoing = true → v.auth.outgoing = true) :
    (∃ evs, ({} : Server σ).run x.server evs = some v) ∧
    ∃ evs, ({} : Caller τ).run (({ s with server := v } : Gateway σ τ).calls x) evs = some s.caller := by
  obtain ⟨evs, hr⟩ := h.srv
  have hr' := server_run_snoc hr hv
  refine ⟨⟨_, hr'⟩, ?_⟩
  cases ho : s.server.auth.outgoing with
  | false => rw [h.idle ho]; exact ⟨[], rfl⟩
  | true =>
    have hu := username_stays (h.sinv hx).auth (SInv.of_run hx.server hr').auth hlog ho (hout ho)
    have : ({ s with server := v } : Gateway σ τ).calls x = s.calls x := by
      simp only [Gateway.calls, hu]
    rw [this]
    exact h.call

/-- Nothing is sent to the target. -/
structure Told (said : List Bytes) (y y' : Auth) : Prop where
  log : ∃ es, y'.log = y.log ++ es ∧ targetSaid es = said ∧ passedOn es = said.filter isDefined ∧ (∀ m, .requestToTarget m ∉ es) ∧
    towards es = [] ∧ clientMessages es = []
  out : y.outgoing = true → y'.outgoing = true

theorem Told.trans {a b c : Auth} {u v : List Bytes} (h : Told u a b) (h' : Told v b c) : Told (u ++ v) a c := by
  obtain ⟨d, e1, e2, e3, e4, e5, e6⟩ := h.log
  obtain ⟨e, f1, f2, f3, f4, f5, f6⟩ := h'.log
  refine ⟨⟨d ++ e, by rw [f1, e1, List.append_assoc], by rw [targetSaid_append, e2, f2], by rw [passedOn_append, e3, f3, List.filter_append],
    fun m hm => ?_, by rw [towards_append, e5, f5]; rfl, by rw [clientMessages_append, e6, f6]; rfl⟩, fun z => h'.out (h.out z)⟩
  rcases List.mem_append.mp hm with hm | hm
  · exact e4 m hm
  · exact f4 m hm

theorem Told.rfl' {y : Auth} : Told [] y y := ⟨⟨[], by simp, rfl, rfl, by simp, rfl, rfl⟩, id⟩

theorem told_disconnect {y : Auth} {n} : Told [] y (y.disconnect n) := ⟨⟨[.disconnected n], rfl, rfl, rfl, by simp, rfl, rfl⟩, id⟩

theorem told_closed {cfg} {y : Auth} : Told [] y (y.step cfg .closed) := by
  unfold Auth.step
  cases y.stop with
  | true => exact .rfl'
  | false => exact ⟨⟨[.closed], rfl, rfl, rfl, by simp, rfl, rfl⟩, id⟩

theorem told_packet {cfg} {y : Auth} (hs : y.stop = false) (hp : y.proxied = true) (m : UInt8) (p : Bytes) :
    Told [m :: p] y (y.step cfg (.targetPacket m p)) := by
  cases hd : shouldProxy m with
  | true =>
    have e : y.step cfg (.targetPacket m p) = { y with log := y.log ++ [.targetReceived m p, .toClient m p] } := by
      simp only [Auth.step, hs, hp, hd, cond_true, cond_false]
    rw [e]
    refine ⟨⟨[.targetReceived m p, .toClient m p], rfl, rfl, ?_, by simp, rfl, rfl⟩, id⟩
    simp [isDefined_iff, hd, passedOn]
  | false =>
    have e : y.step cfg (.targetPacket m p) = y.say (.targetReceived m p) := by
      simp only [Auth.step, hs, hp, hd, cond_true, cond_false]
    rw [e]
    refine ⟨⟨[.targetReceived m p], rfl, rfl, ?_, by simp, rfl, rfl⟩, id⟩
    simp [isDefined_iff, hd, passedOn]

/-- The flags of the upper layer are not changed by a message of the target. -/
theorem packet_flags {cfg} {y : Auth} (hs : y.stop = false) (hp : y.proxied = true) (m : UInt8) (p : Bytes) :
    (y.step cfg (.targetPacket m p)).proxied = true ∧ (y.step cfg (.targetPacket m p)).targetDone = y.targetDone := by
  simp only [Auth.step, hs, cond_false, hp, cond_true]
  cases shouldProxy m with
  | true => exact ⟨rfl, rfl⟩
  | false => exact ⟨hp, rfl⟩

theorem Plan.quiet {log es : List AuthEntry} {live : Bool} (h : Plan log live) (h1 : ∀ m, .requestToTarget m ∉ es)
    (h2 : towards es = []) (h3 : clientMessages es = []) : Plan (log ++ es) live := by
  rcases h with ⟨h4, h5⟩ | ⟨a, m, b, rfl, h5, h6, h7, h8⟩
  · refine .inl ⟨fun m hm => ?_, by rw [towards_append, h5, h2]; rfl⟩
    rcases List.mem_append.mp hm with hm | hm
    · exact h4 m hm
    · exact h1 m hm
  · refine .inr ⟨a, m, b ++ es, by simp, h5, fun q hq => ?_, ?_⟩
    · rcases List.mem_append.mp hq with hq | hq
      · exact h6 q hq
      · exact h1 q hq
    · rw [towards_append, clientMessages_append, h2, h3, List.append_nil, List.append_nil]
      exact ⟨h7, h8⟩

theorem forward_nil {s : Gateway σ τ} {v : Server σ} {es : List AuthEntry} (h : v.auth.log = s.server.auth.log ++ es) (ht : towards es = []) :
    s.forward x v = some { server := v, caller := s.caller } := by
  unfold Gateway.forward
  have : (v.auth.log.drop s.server.auth.log.length).filterMap towardsTarget = [] := by
    rw [h, List.drop_left]; exact ht
  rw [this]
  rfl

/-- The client's connection is told something. -/
theorem tell_ok (hx : GatewayOk x) {said : List Bytes} {s : Gateway σ τ} (h : GBase x said s) (hl : s.server.live = true)
    (hout : s.server.auth.outgoing = true) {ev : AuthEv} (ho : ev.isOther = true)
    (ht : Told said s.server.auth (s.server.auth.step (s.server.cfg x.server) ev)) :
    ∃ v, s.tell x ev = some { server := v, caller := s.caller } ∧ GBase x [] { server := v, caller := s.caller } ∧
      v.auth.outgoing = true ∧
      (v.auth.stop = false → v.live = true ∧ v.auth = s.server.auth.step (s.server.cfg x.server) ev) ∧
      ((s.server.auth.step (s.server.cfg x.server) ev).stop = true → v.auth.stop = true) := by
  obtain ⟨v, hv, -⟩ := (h.sinv hx).step hx.server (.other ev)
  obtain ⟨h1, h2⟩ := server_told hv hl ho
  have h3 : Told said s.server.auth v.auth := by
    rcases h1 with h1 | h1
    · rw [h1]; exact ht
    · rw [h1]
      have := ht.trans (told_closed (cfg := s.server.cfg x.server))
      rwa [List.append_nil] at this
  obtain ⟨es, e1, e2, e3, e4, e5, e6⟩ := h3.log
  obtain ⟨r1, r2⟩ := h.recall hx hv ⟨es, e1⟩ h3.out
  refine ⟨v, ?_, ⟨r1, r2, fun hf => ?_, ?_, ?_, ?_, ?_⟩, h3.out hout, fun hs => ⟨h2 hs, ?_⟩, fun hs => ?_⟩
  · unfold Gateway.tell
    rw [hv, Option.bind_some]
    exact forward_nil e1 e5
  · rw [h3.out hout] at hf; cases hf
  · show s.caller.given = towards v.auth.log
    rw [e1, towards_append, e5, List.append_nil]; exact h.sent
  · show targetSaid v.auth.log ++ [] = targetTalk s.caller.login.log
    rw [e1, targetSaid_append, e2, List.append_nil]; exact h.heard
  · show passedOn v.auth.log = (targetSaid v.auth.log).filter isDefined
    rw [e1, passedOn_append, targetSaid_append, List.filter_append, e2, e3, h.said]
  · show Plan v.auth.log s.caller.live
    rw [e1]; exact h.plan.quiet e4 e5 e6
  · rcases h1 with h1 | h1
    · exact h1
    · rw [h1, closed_stop] at hs; cases hs
  · rcases h1 with h1 | h1
    · rw [h1]; exact hs
    · rw [h1]; exact closed_stop

/-- Nothing is told to a connection which is dead. -/
theorem tell_dead {s : Gateway σ τ} (hl : s.server.live = false) (ev : AuthEv) : s.tell x ev = some s := by
  have : s.server.step x.server (.other ev) = some s.server := by
    simp only [Server.step, hl, Bool.false_and, cond_false]
  unfold Gateway.tell
  rw [this, Option.bind_some, forward_nil (es := []) (by simp) rfl]

theorem Model.Caller.live_not_dying {c : Caller τ} (h : c.live = true) : c.dying = false := by
  have := (Caller.live_iff.mp h).1
  simp only [Trans.live, Bool.and_eq_true, Option.isNone_iff_eq_none] at this
  simp [Caller.dying, this.2]

theorem Model.Caller.live_not_gone {c : Caller τ} (h : c.live = true) : c.gone = false := by
  simp [Caller.gone, h]

/-- The end of the connection to the target. -/
theorem end_ok (hx : GatewayOk x) {s : Gateway σ τ} (h : GBase x [] s) (hout : s.server.auth.outgoing = true)
    (hl : s.server.auth.stop = false → s.server.live = true) {old c : Caller τ} (hlive : c.live = true → old.live = true)
    (hd : s.server.auth.stop = false → s.server.auth.targetDone = s.caller.login.authenticated)
    (hp : s.server.auth.stop = false → s.server.auth.proxied = (old.live && s.caller.login.authenticated))
    (hc : s.caller.live = c.live) :
    ∃ s', (match endedFrom old c with
      | some ev => s.tell x ev
      | none => some s) = some s' ∧ GInv x s' := by
  cases hsl : s.server.live with
  | false =>
    have hs : s.server.auth.stop = true := by
      cases hs : s.server.auth.stop with
      | true => rfl
      | false => rw [hl hs] at hsl; cases hsl
    refine ⟨s, ?_, h, ?_, ?_⟩
    · split
      · exact tell_dead hsl _
      · rfl
    all_goals intro hf; rw [hs] at hf; cases hf
  | true =>
    have hs : s.server.auth.stop = false := (Server.live_iff.mp hsl).2
    unfold endedFrom
    cases h1 : c.gone && !old.gone with
    | true =>
      have e : s.server.auth.step (s.server.cfg x.server) .targetGone = s.server.auth.disconnect 10 := by
        simp only [Auth.step, hs, hout, cond_true, cond_false]
      obtain ⟨v, t1, t2, -, -, t5⟩ := tell_ok hx h hsl hout (ev := .targetGone) rfl (by rw [e]; exact told_disconnect)
      have t6 := t5 (by rw [e]; rfl)
      refine ⟨_, t1, t2, ?_, ?_⟩
      all_goals
        intro hf
        rw [show ({ server := v, caller := s.caller } : Gateway σ τ).server.auth.stop = true from t6] at hf
        cases hf
    | false =>
      rw [cond_false]
      cases h2 : c.dying && old.live with
      | true =>
        rw [Bool.and_eq_true] at h2
        have hcl : c.live = false := by
          cases hcl : c.live with
          | false => rfl
          | true => rw [Caller.live_not_dying hcl] at h2; cases h2.1
        have e : s.server.auth.step (s.server.cfg x.server) .targetDisconnecting = { s.server.auth with proxied := false } := by
          simp only [Auth.step, hs, cond_false]
        obtain ⟨v, t1, t2, -, t4, -⟩ := tell_ok hx h hsl hout (ev := .targetDisconnecting) rfl
          (by rw [e]; exact ⟨⟨[], by simp, rfl, rfl, by simp, rfl, rfl⟩, id⟩)
        refine ⟨_, t1, t2, fun hf => ?_, fun hf => ?_⟩
        · show v.auth.targetDone = s.caller.login.authenticated
          rw [(t4 hf).2, e]; exact hd hs
        · show v.auth.proxied = (s.caller.live && s.caller.login.authenticated)
          rw [(t4 hf).2, e, hc, hcl]; rfl
      | false =>
        refine ⟨s, rfl, h, hd, fun hf => ?_⟩
        rw [hp hf, hc]
        cases ho : old.live with
        | false =>
          cases hcl : c.live with
          | false => rfl
          | true => rw [hlive hcl] at ho; cases ho
        | true =>
          rw [Caller.live_not_gone ho, Bool.not_false, Bool.and_true] at h1
          rw [ho, Bool.and_true] at h2
          cases hcl : c.live with
          | true => rfl
          | false => simp [Caller.gone, hcl, h2] at h1

theorem talk_skip (log es : List TargetEntry) (h : .loggedIn ∉ log) : targetTalk (log ++ es) = targetTalk es := by
  unfold targetTalk
  rw [List.dropWhile_append_of_pos (fun e he => bne_iff_ne.mpr (by rintro rfl; exact h he))]

theorem targetTalk_none {log : List TargetEntry} (h : .loggedIn ∉ log) : targetTalk log = [] := by
  have := talk_skip log [] h
  rwa [List.append_nil] at this

theorem targetTalk_more {log : List TargetEntry} (h : .loggedIn ∈ log) (es : List TargetEntry) :
    targetTalk (log ++ es) = targetTalk log ++ targetMessages es := by
  induction log with
  | nil => cases h
  | cons e log ih =>
    by_cases he : e = .loggedIn
    · subst he
      show targetMessages (TargetEntry.loggedIn :: (log ++ es)) = targetMessages (TargetEntry.loggedIn :: log) ++ targetMessages es
      simp [targetMessages]
    · have h1 : ∀ l : List TargetEntry, targetTalk (e :: l) = targetTalk l := by
        intro l
        unfold targetTalk
        rw [List.dropWhile_cons_of_pos (p := (· != TargetEntry.loggedIn)) (bne_iff_ne.mpr he)]
      rw [List.cons_append, h1, h1]
      exact ih ((List.mem_cons.mp h).resolve_left fun hh => he hh.symm)

theorem targetTalk_begins {log : List TargetEntry} (h : .loggedIn ∉ log) (m : UInt8) (p : Bytes) :
    targetTalk (log ++ [.received m p, .loggedIn]) = [] := by
  rw [talk_skip _ _ h]
  rfl

theorem heard_nil {old new : Target} (h : new.log = old.log) : heardFrom old new = none := by
  unfold heardFrom
  rw [h, List.drop_length]
  rfl

theorem heard_received {old new : Target} {m : UInt8} {p : Bytes} (h : new.log = old.log ++ [.received m p]) (ha : old.authenticated = true) :
    heardFrom old new = some (.targetPacket m p) := by
  unfold heardFrom
  rw [h, List.drop_left]
  simp only [ha, cond_true]

theorem heard_login {old new : Target} {m : UInt8} {p : Bytes} (h : new.log = old.log ++ [.received m p, .loggedIn]) :
    heardFrom old new = some .targetSuccess := by
  unfold heardFrom
  rw [h, List.drop_left]
  rfl

theorem heard_early {old new : Target} {es : List TargetEntry} (h : new.log = old.log ++ es) (ha : old.authenticated = false) (hn : .loggedIn ∉ es) :
    heardFrom old new = none := by
  unfold heardFrom
  rw [h, List.drop_left]
  split
  · rw [ha]; rfl
  · have : es.contains .loggedIn = false := by
      rw [Bool.eq_false_iff]; intro hc; exact hn (List.contains_iff_mem.mp hc)
    rw [this]; rfl

/-- The target has granted the login. -/
theorem success_ok (hx : GatewayOk x) {s : Gateway σ τ} (h : GBase x [] s) (hl : s.server.live = true)
    (hout : s.server.auth.outgoing = true) (hd : s.server.auth.targetDone = false) (hcl : s.caller.live = true)
    (hca : s.caller.login.authenticated = true) (hgiven : s.caller.given = []) :
    ∃ s', s.tell x .targetSuccess = some s' ∧ GBase x [] s' ∧ s'.server.auth.outgoing = true ∧ s'.caller.live = true ∧
      s'.caller.login = s.caller.login ∧
      (s'.server.auth.stop = false → s'.server.live = true ∧ s'.server.auth.targetDone = true ∧ s'.server.auth.proxied = true) := by
  have hs : s.server.auth.stop = false := (Server.live_iff.mp hl).2
  cases hm : optionsPacket s.server.auth.opts with
  | error err =>
    have e : s.server.auth.step (s.server.cfg x.server) .targetSuccess = ({ s.server.auth with targetDone := true } : Auth).disconnect 10 := by
      simp only [Auth.step, hs, hout, hd, Bool.not_false, Bool.and_self, cond_true, cond_false, Auth.targetReady, hm]
    obtain ⟨v, t1, t2, t3, -, t5⟩ := tell_ok hx h hl hout (ev := .targetSuccess) rfl
      (by rw [e]; exact ⟨⟨[.disconnected 10], rfl, rfl, rfl, by simp, rfl, rfl⟩, id⟩)
    have t6 := t5 (by rw [e]; rfl)
    refine ⟨_, t1, t2, t3, hcl, rfl, fun hf => ?_⟩
    rw [show ({ server := v, caller := s.caller } : Gateway σ τ).server.auth.stop = true from t6] at hf
    cases hf
  | ok ser =>
    have e : s.server.auth.step (s.server.cfg x.server) .targetSuccess = { s.server.auth with
        targetDone := true, proxied := true, log := s.server.auth.log ++ [.requestToTarget (ser.buf.drop 5), .success] } := by
      simp only [Auth.step, hs, hout, hd, Bool.not_false, Bool.and_self, cond_true, cond_false, Auth.targetReady, hm]
    obtain ⟨v, hv, -⟩ := (h.sinv hx).step hx.server (.other .targetSuccess)
    obtain ⟨h1, h2⟩ := server_told hv hl rfl
    have hlog : ∃ b, v.auth.log = s.server.auth.log ++ .requestToTarget (ser.buf.drop 5) :: b ∧ targetSaid b = [] ∧ passedOn b = [] ∧
        (∀ m, .requestToTarget m ∉ b) ∧ towards b = [] ∧ clientMessages b = [] ∧ v.auth.outgoing = true := by
      rcases h1 with h1 | h1
      · rw [h1, e]
        exact ⟨[.success], rfl, rfl, rfl, by simp, rfl, rfl, hout⟩
      · rw [h1, e]
        obtain ⟨es, e1, e2, e3, e4, e5, e6⟩ := (told_closed (cfg := s.server.cfg x.server) (y := { s.server.auth with
          targetDone := true, proxied := true, log := s.server.auth.log ++ [.requestToTarget (ser.buf.drop 5), .success] })).log
        refine ⟨.success :: es, by rw [e1]; simp, by rw [← e2]; rfl, by rw [show passedOn (.success :: es) = passedOn es from rfl, e3]; rfl,
          fun m hmm => ?_, by rw [← e5]; rfl, by rw [← e6]; rfl, told_closed.out hout⟩
        rcases List.mem_cons.mp hmm with hmm | hmm
        · cases hmm
        · exact e4 m hmm
    obtain ⟨b, b1, b2, b3, b4, b5, b6, b7⟩ := hlog
    obtain ⟨r1, r2⟩ := h.recall hx hv ⟨_, b1⟩ (fun _ => b7)
    have ht : towards (.requestToTarget (ser.buf.drop 5) :: b) = [ser.buf.drop 5] := by
      show (ser.buf.drop 5) :: towards b = _
      rw [b5]
    obtain ⟨c', d1, d2, d3, d4, d5⟩ := deliver_ok (x := ({ s with server := v } : Gateway σ τ).calls x) hx.out (hx.login.forUser _)
      (ps := [ser.buf.drop 5]) r2 (fun _ => ⟨hcl, hca⟩)
    have hnone : towards s.server.auth.log = [] := by rw [← h.sent, hgiven]
    refine ⟨{ server := v, caller := c' }, ?_, ⟨r1, d5, fun hf => ?_, ?_, ?_, ?_, ?_⟩, b7, by rw [d4, hcl], d3, fun hf => ?_⟩
    · unfold Gateway.tell
      rw [hv, Option.bind_some]
      unfold Gateway.forward
      rw [show (v.auth.log.drop s.server.auth.log.length).filterMap towardsTarget = [ser.buf.drop 5] by
        rw [b1, List.drop_left]; exact ht, d1]
      rfl
    · rw [show ({ server := v, caller := c' } : Gateway σ τ).server.auth.outgoing = true from b7] at hf; cases hf
    · show c'.given = towards v.auth.log
      rw [d2, hgiven, b1, towards_append, hnone, ht]
    · show targetSaid v.auth.log ++ [] = targetTalk c'.login.log
      rw [d3, ← h.heard, b1, targetSaid_append, show targetSaid (.requestToTarget (ser.buf.drop 5) :: b) = targetSaid b from rfl, b2]
      simp
    · show passedOn v.auth.log = (targetSaid v.auth.log).filter isDefined
      rw [b1, targetSaid_append, passedOn_append, show targetSaid (.requestToTarget (ser.buf.drop 5) :: b) = targetSaid b from rfl,
        show passedOn (.requestToTarget (ser.buf.drop 5) :: b) = passedOn b from rfl, b2, b3, h.said, List.append_nil, List.append_nil]
    · show Plan v.auth.log c'.live
      exact .inr ⟨s.server.auth.log, ser.buf.drop 5, b, b1, hnone, b4, by rw [b5]; exact List.nil_prefix, fun _ => by rw [b5, b6]; rfl⟩
    · rcases h1 with h1 | h1
      · refine ⟨h2 hf, ?_⟩
        show v.auth.targetDone = true ∧ v.auth.proxied = true
        rw [h1, e]; exact ⟨rfl, rfl⟩
      · rw [show ({ server := v, caller := c' } : Gateway σ τ).server.auth.stop = v.auth.stop from rfl, h1, closed_stop] at hf; cases hf

/-- The connection to the target has changed. -/
theorem report_ok (hx : GatewayOk x) {s : Gateway σ τ} (h : GInv x s) (hl : s.server.live = true)
    (hout : s.server.auth.outgoing = true) {c : Caller τ} {ev : CallerEvent} (hm : CallerMoved s.caller c)
    (hstep : s.caller.step (s.calls x) ev = some c) :
    ∃ s', s.report x c = some s' ∧ GInv x s' := by
  have hs : s.server.auth.stop = false := (Server.live_iff.mp hl).2
  have hd := h.done hs
  have hp := h.prox hs
  obtain ⟨es, e1, e2, e3⟩ := hm.log
  have hrun : ∃ evs, ({} : Caller τ).run (s.calls x) evs = some c := by
    obtain ⟨evs, hr⟩ := h.call
    exact ⟨_, caller_run_snoc hr hstep⟩
  have hki := (h.cinv hx).target (hx.login.forUser _) |>.known
  have near : ∀ {said : List Bytes}, targetTalk c.login.log = targetTalk s.caller.login.log ++ said →
      GBase x said { s with caller := c } := by
    intro said ht
    refine ⟨h.srv, hrun, fun hf => ?_, by rw [← h.sent]; exact hm.given, ?_, h.said, h.plan.weaken hm.live⟩
    · rw [show ({ s with caller := c } : Gateway σ τ).server.auth.outgoing = true from hout] at hf; cases hf
    · show targetSaid s.server.auth.log ++ said = targetTalk c.login.log
      rw [ht, ← h.heard, List.append_nil]
  have quiet : heardFrom s.caller.login c.login = none → targetTalk c.login.log = targetTalk s.caller.login.log →
      c.login.authenticated = s.caller.login.authenticated → ∃ s', s.report x c = some s' ∧ GInv x s' := by
    intro hh ht ha
    unfold Gateway.report
    rw [hh]
    exact end_ok hx (near (by rw [ht, List.append_nil])) hout (fun _ => hl) hm.live (fun _ => by rw [hd]; exact ha.symm)
      (fun _ => by rw [hp, ← ha]) rfl
  rcases e3 with ⟨a1, a2, a3⟩ | ⟨a1, a2, a3⟩ | ⟨a1, a2, a3, m, p, a4⟩
  · have hin := hki.mp a1
    rcases a3 with a3 | ⟨m, p, a3⟩
    · rw [a3, List.append_nil] at e1
      exact quiet (heard_nil e1) (by rw [e1]) (by rw [a1, a2])
    · have hlive : s.caller.live = true := e2 (by rw [a3]; simp)
      rw [a3] at e1
      have hprox : s.server.auth.proxied = true := by rw [hp, hlive, a1]; rfl
      have hb := near (said := [m :: p]) (by rw [e1, targetTalk_more hin]; rfl)
      obtain ⟨v, t1, t2, t3, t4, -⟩ := tell_ok hx hb hl hout (ev := .targetPacket m p) rfl (told_packet hs hprox m p)
      obtain ⟨f1, f2⟩ := packet_flags (cfg := s.server.cfg x.server) hs hprox m p
      unfold Gateway.report
      rw [heard_received e1 a1]
      simp only [t1, Option.bind_some]
      refine end_ok hx t2 t3 (fun hf => (t4 hf).1) hm.live (fun hf => ?_) (fun hf => ?_) rfl
      · show v.auth.targetDone = c.login.authenticated
        rw [(t4 hf).2, a2]
        exact f2.trans (by rw [hd, a1])
      · show v.auth.proxied = (s.caller.live && c.login.authenticated)
        rw [(t4 hf).2, a2, hlive]
        exact f1
  · have hni : TargetEntry.loggedIn ∉ s.caller.login.log := fun hi => by rw [hki.mpr hi] at a1; cases a1
    refine quiet (heard_early e1 a1 a3) ?_ (by rw [a1, a2])
    rw [targetTalk_none hni, e1, targetTalk_none]
    intro hi
    rcases List.mem_append.mp hi with hi | hi
    · exact hni hi
    · exact a3 hi
  · have hni : TargetEntry.loggedIn ∉ s.caller.login.log := fun hi => by rw [hki.mpr hi] at a1; cases a1
    rw [a4] at e1
    have hb := near (said := []) (by rw [e1, targetTalk_begins hni, targetTalk_none hni]; rfl)
    have hg : c.given = [] := by
      rw [hm.given]
      cases hgv : s.caller.given with
      | nil => rfl
      | cons q qs =>
        have := (h.cinv hx).later (by rw [hgv]; simp)
        rw [a1] at this; cases this
    obtain ⟨s', t1, t2, t3, t4, t5, t6⟩ := success_ok hx hb hl hout (by rw [show ({ s with caller := c } : Gateway σ τ).server = s.server from rfl, hd, a1]) a3 a2 hg
    unfold Gateway.report
    rw [heard_login e1]
    simp only [t1, Option.bind_some]
    have hold : s.caller.live = true := hm.live a3
    refine end_ok hx t2 t3 (fun hf => (t6 hf).1) (fun _ => hold) (fun hf => ?_) (fun hf => ?_) (by rw [t4]; exact a3.symm)
    · rw [(t6 hf).2.1, t5]; exact a2.symm
    · rw [(t6 hf).2.2, hold, t5]
      exact (show c.login.authenticated = true from a2).symm

/-- An event on the connection of the client. -/
theorem client_ok (hx : GatewayOk x) {s : Gateway σ τ} (h : GInv x s) {ev : ServerEvent} (hn : ev.isTarget = false) :
    ∃ s', ((s.server.step x.server ev).bind fun v => s.forward x v) = some s' ∧ GInv x s' := by
  obtain ⟨v, hv, -⟩ := (h.sinv hx).step hx.server ev
  obtain ⟨hk, hst⟩ := server_linked hv hn
  obtain ⟨es, e1, e2, e3, e4, e5⟩ := hk.log
  obtain ⟨r1, r2⟩ := h.recall hx hv ⟨es, e1⟩ hk.out
  have hnil : s.server.auth.stop = true → es = [] := by
    intro hs
    rw [hst hs] at e1
    exact List.append_right_eq_self.mp e1.symm
  have hcan : towards es ≠ [] → s.caller.live = true ∧ s.caller.login.authenticated = true := by
    intro hne
    have hs : s.server.auth.stop = false := by
      cases hs : s.server.auth.stop with
      | false => rfl
      | true => rw [hnil hs] at hne; exact absurd rfl hne
    have : s.server.auth.proxied = true := by
      cases hp : s.server.auth.proxied with
      | true => rfl
      | false => rw [e5, hp] at hne; exact absurd rfl hne
    rw [h.prox hs, Bool.and_eq_true] at this
    exact this
  obtain ⟨c', d1, d2, d3, d4, d5⟩ := deliver_ok (x := ({ s with server := v } : Gateway σ τ).calls x) hx.out (hx.login.forUser _) r2 hcan
  have hid : v.auth.outgoing = false → s.caller = {} := by
    intro hf
    refine h.idle ?_
    cases ho : s.server.auth.outgoing with
    | false => rfl
    | true => rw [hk.out ho] at hf; cases hf
  refine ⟨{ server := v, caller := c' }, ?_, ⟨r1, d5, fun hf => ?_, ?_, ?_, ?_, ?_⟩, fun hf => ?_, fun hf => ?_⟩
  · rw [hv, Option.bind_some]
    unfold Gateway.forward
    rw [show (v.auth.log.drop s.server.auth.log.length).filterMap towardsTarget = towards es by
      rw [e1, List.drop_left]; rfl, d1]
    rfl
  · have hc := hid hf
    have ht : towards es = [] := by
      cases ht : towards es with
      | nil => rfl
      | cons p ps =>
        have := (hcan (by rw [ht]; simp)).2
        rw [hc] at this; cases this
    rw [ht] at d1
    have d1' : some s.caller = some c' := d1
    show c' = {}
    rw [← Option.some.inj d1', hc]
  · show c'.given = towards v.auth.log
    rw [d2, h.sent, e1, towards_append]
  · show targetSaid v.auth.log ++ [] = targetTalk c'.login.log
    rw [d3, e1, targetSaid_append, e2, List.append_nil]; exact h.heard
  · show passedOn v.auth.log = (targetSaid v.auth.log).filter isDefined
    rw [e1, passedOn_append, targetSaid_append, List.filter_append, e2, e3, h.said]
  · show Plan v.auth.log c'.live
    rw [d4, e1]
    rcases h.plan with ⟨h4, h5⟩ | ⟨a, m, b, hab, h5, h6, h7, h8⟩
    · have hp : s.server.auth.proxied = false := by
        cases hp : s.server.auth.proxied with
        | false => rfl
        | true =>
          obtain ⟨q, hq⟩ := proxied_request (h.sinv hx).auth hp
          exact absurd hq (h4 q)
      refine .inl ⟨fun q hq => ?_, ?_⟩
      · rcases List.mem_append.mp hq with hq | hq
        · exact h4 q hq
        · exact e4 q hq
      · rw [towards_append, h5, e5, hp]; rfl
    · refine .inr ⟨a, m, b ++ es, by rw [hab]; simp, h5, fun q hq => ?_, ?_, fun hlive => ?_⟩
      · rcases List.mem_append.mp hq with hq | hq
        · exact h6 q hq
        · exact e4 q hq
      all_goals rw [towards_append, clientMessages_append, List.filter_append]
      · cases hs : s.server.auth.stop with
        | true => rw [hnil hs]; simpa [towards, clientMessages] using h7
        | false =>
          cases hp : s.server.auth.proxied with
          | true =>
            have := h.prox hs
            rw [hp] at this
            rw [h8 (Bool.and_eq_true _ _ ▸ this.symm).1, e5, hp]
            exact List.prefix_rfl
          | false =>
            rw [e5, hp, cond_false, List.append_nil]
            exact h7.trans (List.prefix_append _ _)
      · rw [h8 hlive]
        cases hs : s.server.auth.stop with
        | true => rw [hnil hs]; rfl
        | false =>
          have ha : s.caller.login.authenticated = true := by
            refine (h.cinv hx).later ?_
            rw [h.sent, hab, towards_append]
            simp [towards, towardsTarget]
          rw [e5, h.prox hs, hlive, ha]
          rfl
  · show v.auth.targetDone = c'.login.authenticated
    rw [d3, hk.tdone]
    refine h.done ?_
    cases hs : s.server.auth.stop with
    | false => rfl
    | true =>
      rw [show ({ server := v, caller := c' } : Gateway σ τ).server.auth = v.auth from rfl, hst hs, hs] at hf; cases hf
  · show v.auth.proxied = (c'.live && c'.login.authenticated)
    rw [d3, d4, hk.prox]
    refine h.prox ?_
    cases hs : s.server.auth.stop with
    | false => rfl
    | true =>
      rw [show ({ server := v, caller := c' } : Gateway σ τ).server.auth = v.auth from rfl, hst hs, hs] at hf; cases hf

theorem GInv.step (hx : GatewayOk x) {s : Gateway σ τ} (h : GInv x s) (ev : GatewayEvent) :
    ∃ s', s.step x ev = some s' ∧ GInv x s' := by
  have other : ∀ {cev : CallerEvent}, (∀ p, cev ≠ .send p) →
      ∃ s', (bif s.server.live && s.server.auth.outgoing then
          (s.caller.step (s.calls x) cev).bind fun c => s.report x c
        else some s) = some s' ∧ GInv x s' := by
    intro cev hne
    cases hc : s.server.live && s.server.auth.outgoing with
    | false => exact ⟨s, rfl, h⟩
    | true =>
      rw [Bool.and_eq_true] at hc
      obtain ⟨c, hstep, -⟩ := (h.cinv hx).step hx.out (hx.login.forUser _) cev
      have hm := caller_moved (x := s.calls x) hx.out (hx.login.forUser _) (h.cinv hx) hne hstep
      rw [cond_true, hstep, Option.bind_some]
      exact report_ok hx h hc.1 hc.2 hm hstep
  cases ev with
  | client ev =>
    simp only [Gateway.step]
    cases hn : ev.isTarget with
    | true => exact ⟨s, rfl, h⟩
    | false => exact client_ok hx h hn
  | io ev => exact other (cev := .io ev) (by simp)
  | ready => exact other (cev := .ready s.server.auth.proxied) (by simp)
  | lost => exact other (cev := .lost) (by simp)

theorem GInv.run (hx : GatewayOk x) (evs : List GatewayEvent) : ∀ {s : Gateway σ τ}, GInv x s → ∃ s', s.run x evs = some s' ∧ GInv x s' := by
  induction evs with
  | nil => intro s h; exact ⟨s, rfl, h⟩
  | cons ev evs ih =>
    intro s h
    obtain ⟨s', h1, h2⟩ := h.step hx ev
    obtain ⟨s'', h3, h4⟩ := ih h2
    exact ⟨s'', by simp [Gateway.run, h1, h3], h4⟩

theorem GInv.of_run (hx : GatewayOk x) {evs : List GatewayEvent} {s : Gateway σ τ} (h : ({} : Gateway σ τ).run x evs = some s) : GInv x s := by
  obtain ⟨s', h1, h2⟩ := GInv.run hx evs (GInv.init x)
  rw [h] at h1
  cases h1
  exact h2

end Lukko
