import Verif.Model.Gateway
import Verif.Proof.ServerRun
/-
  What has nothing to do with the connection to a target.
-/
namespace Lukko
open Spec Model

/-- Does the entry tell about the forwarding of messages? -/
def linkEntry : AuthEntry → Bool
  | .requestToTarget _ | .toTarget .. | .targetReceived .. | .toClient .. => true
  | _ => false

structure Aloof (y y' : Auth) : Prop where
  log : ∃ es, y'.log = y.log ++ es ∧ ∀ e ∈ es, linkEntry e = false
  out : y.outgoing = true → y'.outgoing = true
  prox : y'.proxied = y.proxied
  tdone : y'.targetDone = y.targetDone

theorem Aloof.rfl' {y : Auth} : Aloof y y := ⟨⟨[], by simp, by simp⟩, id, rfl, rfl⟩

theorem Aloof.trans {a b c : Auth} (h : Aloof a b) (h' : Aloof b c) : Aloof a c := by
  obtain ⟨x, e1, d1⟩ := h.log
  obtain ⟨y, e2, d2⟩ := h'.log
  refine ⟨⟨x ++ y, by rw [e2, e1, List.append_assoc], fun e he => ?_⟩, fun z => h'.out (h.out z), h'.prox.trans h.prox, h'.tdone.trans h.tdone⟩
  rcases List.mem_append.mp he with he | he
  · exact d1 e he
  · exact d2 e he

theorem Aloof.trans' {a b c : Auth} (h' : Aloof b c) (h : Aloof a b) : Aloof a c := h.trans h'

theorem Aloof.same {y y' : Auth} (h : y'.log = y.log) (h1 : y.outgoing = true → y'.outgoing = true := by first | exact id | exact fun _ => rfl) (h2 : y'.proxied = y.proxied := by rfl)
    (h3 : y'.targetDone = y.targetDone := by rfl) : Aloof y y' := ⟨⟨[], by simp [h], by simp⟩, h1, h2, h3⟩

theorem Aloof.one {y y' : Auth} {e : AuthEntry} (h : y'.log = y.log ++ [e]) (hn : linkEntry e = false := by rfl)
    (h1 : y.outgoing = true → y'.outgoing = true := by first | exact id | exact fun _ => rfl) (h2 : y'.proxied = y.proxied := by rfl)
    (h3 : y'.targetDone = y.targetDone := by rfl) : Aloof y y' := ⟨⟨[e], h, by simpa using hn⟩, h1, h2, h3⟩

theorem Aloof.two {y y' : Auth} {e f : AuthEntry} (h : y'.log = y.log ++ [e, f]) (hn : linkEntry e = false := by rfl)
    (hn' : linkEntry f = false := by rfl) (h1 : y.outgoing = true → y'.outgoing = true := by first | exact id | exact fun _ => rfl) (h2 : y'.proxied = y.proxied := by rfl)
    (h3 : y'.targetDone = y.targetDone := by rfl) : Aloof y y' := ⟨⟨[e, f], h, by simp [hn, hn']⟩, h1, h2, h3⟩

theorem aloof_say {y : Auth} {e : AuthEntry} (hn : linkEntry e = false) : Aloof y (y.say e) := .one rfl hn

theorem aloof_disconnect {y : Auth} {n} : Aloof y (y.disconnect n) := .one rfl

theorem aloof_close {y : Auth} : Aloof y y.close := .one rfl

theorem aloof_malformed {y : Auth} {b} : Aloof y (y.malformed b) := by
  cases b
  · exact aloof_disconnect
  · exact aloof_close

theorem aloof_complete {cfg} {y : Auth} {b} : Aloof y (y.complete cfg b) := .same rfl

theorem aloof_fail {cfg} {y : Auth} {m b} : Aloof y (y.fail cfg m b) := (aloof_say (e := .failure m) rfl).trans aloof_complete

theorem aloof_failLater {y : Auth} {m} : Aloof y (y.failLater m) := .same rfl

theorem aloof_accept {cfg} {y : Auth} {r b} : Aloof y (y.accept cfg r b) := by
  unfold Auth.accept
  simp only
  split
  · refine Aloof.trans ?_ aloof_close
    exact Aloof.one (e := .loggedIn (y.login r.user r.method)) rfl
  · exact Aloof.one (e := .loggedIn (y.login r.user r.method)) rfl
  · refine Aloof.trans ?_ aloof_complete
    refine Aloof.two (e := .loggedIn (y.login r.user r.method)) (f := .success) ?_
    simp

theorem aloof_keyAccepted {cfg} {y : Auth} {r k b} : Aloof y (y.keyAccepted cfg r k b) := by
  unfold Auth.keyAccepted
  simp only [Bool.cond_eq_ite]
  split
  · exact aloof_fail
  · split
    · split
      · exact aloof_malformed
      · exact (aloof_say (e := .keyOk k.alg k.blob) rfl).trans aloof_complete
    · split
      · exact aloof_malformed
      · unfold Auth.checkKeySignature
        split
        · exact aloof_fail
        · split
          · exact aloof_fail
          · exact aloof_failLater
          · exact aloof_accept

theorem aloof_publickey {cfg} {y : Auth} {r b} : Aloof y (y.publickey cfg r b) := by
  unfold Auth.publickey
  split
  · exact aloof_malformed
  · split
    · exact Aloof.trans' aloof_keyAccepted (Aloof.same rfl)
    · simp only [Bool.cond_eq_ite]
      split
      · exact .same rfl
      · exact aloof_failLater

theorem aloof_hostBased {cfg} {y : Auth} {r b} : Aloof y (y.hostBased cfg r b) := by
  unfold Auth.hostBased
  split
  · exact aloof_malformed
  · split
    · exact aloof_failLater
    · rename_i o _
      refine Aloof.trans (b := { y with opts := o }) (Aloof.same rfl) ?_
      unfold Auth.hostAccepted
      simp only [Bool.cond_eq_ite]
      split
      · exact aloof_fail
      · split
        · exact aloof_fail
        · split
          · exact Aloof.trans' aloof_accept (Aloof.same rfl)
          · exact aloof_fail

theorem aloof_byMethod {cfg} {y : Auth} {r p b} : Aloof y (y.byMethod cfg r p b) := by
  unfold Auth.byMethod
  simp only [Bool.cond_eq_ite]
  split
  · exact aloof_publickey
  · split
    · exact aloof_hostBased
    · split
      · exact aloof_accept
      · exact aloof_failLater

theorem aloof_accountKnown {cfg} {y : Auth} {r p a b} : Aloof y (y.accountKnown cfg r p a b) := by
  unfold Auth.accountKnown
  simp only [Bool.cond_eq_ite]
  split
  · exact aloof_failLater
  · have : Aloof y (y.applyAccount a p) := .same rfl
    split
    · exact this.trans aloof_disconnect
    · exact this.trans aloof_byMethod

theorem aloof_lazyTranslate {cfg} {y : Auth} {r p b} : Aloof y (y.lazyTranslate cfg r p b) := by
  unfold Auth.lazyTranslate
  simp only [Bool.cond_eq_ite]
  split
  · split
    · exact aloof_accountKnown
    · exact .same rfl
  · exact .same rfl

theorem aloof_afterTarpit {cfg} {y : Auth} {r b} : Aloof y (y.afterTarpit cfg r b) := by
  unfold Auth.afterTarpit
  simp only [Bool.cond_eq_ite]
  split
  · exact aloof_fail
  split
  · exact aloof_disconnect
  split
  · unfold Auth.withTranslation
    simp only [Bool.cond_eq_ite]
    split
    · split
      · exact aloof_malformed
      · split
        · exact aloof_fail
        · exact aloof_lazyTranslate
    · exact aloof_lazyTranslate
  split
  · exact aloof_failLater
  · exact aloof_byMethod

theorem aloof_userauth {cfg} {y : Auth} {p d} : Aloof y (y.handleUserauthRequest cfg p d) := by
  unfold Auth.handleUserauthRequest
  simp only [Bool.cond_eq_ite]
  split
  · exact .rfl'
  split
  · exact aloof_disconnect
  unfold Auth.userAuthRequest
  simp only [Bool.cond_eq_ite]
  split
  · exact aloof_malformed
  · split
    · exact .same rfl
    · exact aloof_afterTarpit

theorem aloof_service {y : Auth} {p} : Aloof y (y.serviceRequest p) := by
  unfold Auth.serviceRequest
  split
  · exact aloof_malformed
  · split
    · rename_i name _ _
      exact Aloof.one (e := .serviceAccepted name) rfl
    · exact aloof_disconnect

theorem aloof_transport {y : Auth} {m} : Aloof y (y.transportPacket m) := by
  unfold Auth.transportPacket
  split
  · exact aloof_close
  split
  · exact .rfl'
  · exact aloof_say rfl

theorem aloof_channel {y : Auth} {m p} : Aloof y (y.channelPacket m p) := by
  unfold Auth.channelPacket
  split
  · split
    · exact aloof_malformed
    · unfold Auth.createChannel
      simp only [Bool.cond_eq_ite]
      repeat' split
      all_goals first | exact aloof_disconnect | exact aloof_malformed | exact aloof_say rfl
  · exact aloof_say rfl

theorem aloof_global {y : Auth} {p} : Aloof y (y.globalPacket p) := by
  unfold Auth.globalPacket
  split
  · exact aloof_malformed
  · unfold Auth.globalRequest
    simp only [Bool.cond_eq_ite]
    split
    · split
      · exact aloof_say rfl
      · split
        · exact aloof_close
        · exact aloof_say rfl
    split
    · split
      · exact aloof_close
      · exact aloof_say rfl
    split
    · exact Aloof.one (e := .noMoreSessions) rfl
    split
    · unfold Auth.optionsRequest
      simp only [Bool.cond_eq_ite]
      split
      · exact aloof_say rfl
      · split
        · exact aloof_close
        · split
          · exact Aloof.one rfl
          · exact aloof_say rfl
    · exact aloof_say rfl

theorem aloof_resume {cfg} {y : Auth} {t ev} : Aloof y (y.resume cfg t ev) := by
  unfold Auth.resume
  split
  · exact Aloof.trans' aloof_afterTarpit (Aloof.same rfl)
  · rename_i r pw a
    refine Aloof.trans (b := { y with task := none }) (Aloof.same rfl) ?_
    cases a with
    | none => exact aloof_disconnect
    | some a => exact Aloof.trans' aloof_accountKnown (Aloof.one (e := .account r.user pw a) rfl)
  · rename_i r k text
    refine Aloof.trans (b := { y with task := none }) (Aloof.same rfl) ?_
    unfold Auth.homeRead
    simp only
    refine Aloof.trans (aloof_say (e := .homeKeys text) rfl) ?_
    split
    · exact Aloof.trans' aloof_keyAccepted (Aloof.same rfl)
    · exact aloof_failLater
  · exact aloof_fail
  · exact Aloof.same rfl
  · exact aloof_close
  · exact .rfl'

theorem aloof_packet {cfg} {y : Auth} {m p d} (hn : (y.proxied && shouldProxy m) = false) : Aloof y (y.packet cfg m p d) := by
  unfold Auth.packet
  split
  · rename_i y' h
    unfold Auth.laterHandlers at h
    simp only [hn, Bool.cond_eq_ite, Bool.false_eq_true, if_false] at h
    split at h
    · cases h; exact aloof_channel
    split at h
    · cases h; exact aloof_global
    · cases h
  · unfold Auth.userAuthPacket
    simp only [Bool.cond_eq_ite]
    split
    · exact aloof_transport
    split
    · exact aloof_disconnect
    split
    · exact aloof_service
    split
    · exact aloof_userauth
    · exact aloof_transport

/-! ### What is forwarded -/

/-- What the target has said. -/
def targetSaid (log : List AuthEntry) : List Bytes :=
  log.filterMap fun | .targetReceived m p => some (m :: p) | _ => none

/-- What was passed on to the client. -/
def passedOn (log : List AuthEntry) : List Bytes :=
  log.filterMap fun | .toClient m p => some (m :: p) | _ => none

/-- What the target is to be sent. -/
def towards (log : List AuthEntry) : List Bytes := log.filterMap towardsTarget

theorem targetSaid_append (a b : List AuthEntry) : targetSaid (a ++ b) = targetSaid a ++ targetSaid b := by simp [targetSaid]
theorem passedOn_append (a b : List AuthEntry) : passedOn (a ++ b) = passedOn a ++ passedOn b := by simp [passedOn]
theorem towards_append (a b : List AuthEntry) : towards (a ++ b) = towards a ++ towards b := by simp [towards]

theorem aloof_entries {es : List AuthEntry} (h : ∀ e ∈ es, linkEntry e = false) :
    targetSaid es = [] ∧ passedOn es = [] ∧ towards es = [] ∧ ∀ m, .requestToTarget m ∉ es := by
  refine ⟨?_, ?_, ?_, ?_⟩
  · simp only [targetSaid, List.filterMap_eq_nil_iff]
    intro e he
    have := h e he
    cases e <;> first | rfl | cases this
  · simp only [passedOn, List.filterMap_eq_nil_iff]
    intro e he
    have := h e he
    cases e <;> first | rfl | cases this
  · simp only [towards, List.filterMap_eq_nil_iff]
    intro e he
    have := h e he
    cases e <;> first | rfl | cases this
  · intro m hm
    exact absurd (h _ hm) (by simp [linkEntry])

/-- An event on an established connection; `said`: what the target says. -/
structure Linked (said : List Bytes) (y y' : Auth) : Prop where
  log : ∃ es, y'.log = y.log ++ es ∧ targetSaid es = said ∧ passedOn es = said.filter isDefined ∧ (∀ m, .requestToTarget m ∉ es) ∧
    towards es = bif y.proxied then (clientMessages es).filter isDefined else []
  out : y.outgoing = true → y'.outgoing = true
  prox : y'.proxied = y.proxied
  tdone : y'.targetDone = y.targetDone

theorem Linked.rfl' {y : Auth} : Linked [] y y := ⟨⟨[], by simp, rfl, rfl, by simp, by cases y.proxied <;> rfl⟩, id, rfl, rfl⟩

theorem Linked.trans {a b c : Auth} {u v : List Bytes} (h : Linked u a b) (h' : Linked v b c) : Linked (u ++ v) a c := by
  obtain ⟨d, e1, e2, e3, e4, e5⟩ := h.log
  obtain ⟨e, f1, f2, f3, f4, f5⟩ := h'.log
  refine ⟨⟨d ++ e, by rw [f1, e1, List.append_assoc], by rw [targetSaid_append, e2, f2], by rw [passedOn_append, e3, f3, List.filter_append],
    fun m hm => ?_, ?_⟩, fun z => h'.out (h.out z), h'.prox.trans h.prox, h'.tdone.trans h.tdone⟩
  · rcases List.mem_append.mp hm with hm | hm
    · exact e4 m hm
    · exact f4 m hm
  · rw [towards_append, e5, f5, h.prox]
    cases a.proxied with
    | false => rfl
    | true => simp only [cond_true]; rw [clientMessages_append, List.filter_append]

/-- Nothing is received. -/
theorem Aloof.linked {y y' : Auth} (h : Aloof y y') (hg : Grew y y') : Linked [] y y' := by
  obtain ⟨es, h1, h2⟩ := h.log
  obtain ⟨es', h3, h4⟩ := hg.log
  have : es' = es := List.append_cancel_left (h3.symm.trans h1)
  subst this
  obtain ⟨a, b, c, d⟩ := aloof_entries h2
  refine ⟨⟨es', h1, a, b, d, ?_⟩, h.out, h.prox, h.tdone⟩
  rw [c, h4]
  cases y.proxied <;> rfl

theorem isDefined_iff (m : UInt8) (p : Bytes) : isDefined (m :: p) = shouldProxy m := by
  rw [Bool.eq_iff_iff, shouldProxy_iff]
  simp [isDefined]

theorem clientMessages_received (m : UInt8) (p : Bytes) (es : List AuthEntry) :
    clientMessages (.received m p :: es) = (m :: p) :: clientMessages es := rfl

theorem linked_packet {cfg} {y : Auth} (hs : y.stop = false) {m p d} : Linked [] y (y.step cfg (.packet m p d)) := by
  have he : y.step cfg (.packet m p d) = (y.say (.received m p)).packet cfg m p d := by
    simp only [Auth.step, hs, cond_false]
  rw [he]
  cases hp : y.proxied && shouldProxy m with
  | true =>
    have h1 : (y.say (.received m p)).packet cfg m p d = (y.say (.received m p)).say (.toTarget m p) := by
      simp only [Auth.packet, Auth.laterHandlers]
      rw [show (y.say (.received m p)).proxied = y.proxied from rfl, hp]
      rfl
    rw [Bool.and_eq_true] at hp
    rw [h1]
    refine ⟨⟨[.received m p, .toTarget m p], by simp [Auth.say], rfl, rfl, by simp, ?_⟩, id, rfl, rfl⟩
    rw [hp.1, cond_true]
    simp only [clientMessages, List.filterMap_cons, List.filterMap_nil, List.filter_cons, isDefined_iff, hp.2, if_true, List.filter_nil]
    rfl
  | false =>
    have h1 : Aloof (y.say (.received m p)) ((y.say (.received m p)).packet cfg m p d) := aloof_packet hp
    have h2 : Grew (y.say (.received m p)) ((y.say (.received m p)).packet cfg m p d) := grew_packet
    obtain ⟨es, h3, h4⟩ := h1.log
    obtain ⟨es', h5, h6⟩ := h2.log
    have : es' = es := List.append_cancel_left (h5.symm.trans h3)
    subst this
    obtain ⟨a, b, c, e⟩ := aloof_entries h4
    refine ⟨⟨.received m p :: es', by rw [h3]; simp [Auth.say], a, b, ?_, ?_⟩, h1.out, h1.prox, h1.tdone⟩
    · intro q hq
      rcases List.mem_cons.mp hq with hq | hq
      · cases hq
      · exact e q hq
    · have hto : towards (.received m p :: es') = towards es' := rfl
      rw [hto, c, clientMessages_received, h6]
      cases hpr : y.proxied with
      | false => rfl
      | true =>
        rw [hpr, Bool.true_and] at hp
        simp [isDefined_iff, hp]

theorem linked_step {cfg} {y : Auth} {ev : AuthEv} (hn : ev.isTarget = false) : Linked [] y (y.step cfg ev) := by
  cases hs : y.stop with
  | true =>
    have : y.step cfg ev = y := by simp [Auth.step, hs]
    rw [this]
    exact .rfl'
  | false =>
    cases ev with
    | packet m p d => exact linked_packet hs
    | encrypted =>
      simp only [Auth.step, hs, cond_false]
      cases y.encrypted with
      | true => exact .rfl'
      | false => exact ⟨⟨[.encrypted], rfl, rfl, rfl, by simp, by cases hp : y.proxied <;> rfl⟩, id, rfl, rfl⟩
    | targetSuccess | targetPacket | targetDisconnecting | targetGone => cases hn
    | authTimeout =>
      refine Aloof.linked ?_ (grew_other rfl)
      simp only [Auth.step, hs, cond_false]
      cases y.authenticated with
      | true => exact .rfl'
      | false => exact aloof_disconnect
    | closed =>
      refine Aloof.linked ?_ (grew_other rfl)
      simp only [Auth.step, hs, cond_false]
      exact aloof_close
    | timer | translated | home | connected =>
      refine Aloof.linked ?_ (grew_other rfl)
      simp only [Auth.step, hs, cond_false]
      split
      · exact .rfl'
      · exact aloof_resume

/-- A message of the target. -/
theorem linked_target {cfg} {y : Auth} (hs : y.stop = false) (hp : y.proxied = true) (m : UInt8) (p : Bytes) :
    Linked [m :: p] y (y.step cfg (.targetPacket m p)) := by
  cases hd : shouldProxy m with
  | true =>
    have e : y.step cfg (.targetPacket m p) = { y with log := y.log ++ [.targetReceived m p, .toClient m p] } := by
      simp only [Auth.step, hs, hp, hd, cond_true, cond_false]
    rw [e]
    refine ⟨⟨[.targetReceived m p, .toClient m p], rfl, rfl, ?_, by simp, by rw [hp]; rfl⟩, id, rfl, rfl⟩
    simp [isDefined_iff, hd, passedOn]
  | false =>
    have e : y.step cfg (.targetPacket m p) = y.say (.targetReceived m p) := by
      simp only [Auth.step, hs, hp, hd, cond_true, cond_false]
    rw [e]
    refine ⟨⟨[.targetReceived m p], rfl, rfl, ?_, by simp, by rw [hp]; rfl⟩, id, rfl, rfl⟩
    simp [isDefined_iff, hd, passedOn]

end Lukko
