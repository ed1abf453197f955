import Verif.Spec.Server
import Verif.Model.Server
/-
  What an event adds to the record of the upper layer.
-/
namespace Lukko
open Spec Model

theorem clientMessages_append (a b : List AuthEntry) : clientMessages (a ++ b) = clientMessages a ++ clientMessages b := by
  simp [clientMessages]

structure Grew (y y' : Auth) : Prop where
  log : ∃ es, y'.log = y.log ++ es ∧ clientMessages es = []
  enc : y'.encrypted = y.encrypted
  mono : y.authenticated = true → y'.authenticated = true
  chan : y.channels = true → y'.channels = true

theorem Grew.rfl' {y : Auth} : Grew y y := ⟨⟨[], by simp, rfl⟩, rfl, id, id⟩

theorem Grew.trans {a b c : Auth} (h : Grew a b) (h' : Grew b c) : Grew a c := by
  obtain ⟨x, e1, d1⟩ := h.log
  obtain ⟨y, e2, d2⟩ := h'.log
  exact ⟨⟨x ++ y, by rw [e2, e1, List.append_assoc], by rw [clientMessages_append, d1, d2]; rfl⟩,
    h'.enc.trans h.enc, fun z => h'.mono (h.mono z), fun z => h'.chan (h.chan z)⟩

theorem Grew.trans' {a b c : Auth} (h' : Grew b c) (h : Grew a b) : Grew a c := h.trans h'

theorem Grew.same {y y' : Auth} (h : y'.log = y.log) (he : y'.encrypted = y.encrypted)
    (ha : y.authenticated = true → y'.authenticated = true)
    (hc : y.channels = true → y'.channels = true := by first | exact id | exact fun _ => rfl) : Grew y y' := ⟨⟨[], by simp [h], rfl⟩, he, ha, hc⟩

theorem Grew.one {y y' : Auth} {e : AuthEntry} (h : y'.log = y.log ++ [e]) (hn : clientMessages [e] = []) (he : y'.encrypted = y.encrypted)
    (ha : y.authenticated = true → y'.authenticated = true)
    (hc : y.channels = true → y'.channels = true := by first | exact id | exact fun _ => rfl) : Grew y y' := ⟨⟨[e], h, hn⟩, he, ha, hc⟩

theorem Grew.two {y y' : Auth} {e f : AuthEntry} (h : y'.log = y.log ++ [e, f]) (hn : clientMessages [e, f] = [])
    (he : y'.encrypted = y.encrypted) (ha : y.authenticated = true → y'.authenticated = true)
    (hc : y.channels = true → y'.channels = true := by first | exact id | exact fun _ => rfl) : Grew y y' := ⟨⟨[e, f], h, hn⟩, he, ha, hc⟩

theorem grew_say {y : Auth} {e : AuthEntry} (hn : clientMessages [e] = []) : Grew y (y.say e) := .one rfl hn rfl id

theorem grew_disconnect {y : Auth} {n} : Grew y (y.disconnect n) := .one rfl rfl rfl id

theorem grew_close {y : Auth} : Grew y y.close := .one rfl rfl rfl id

theorem grew_malformed {y : Auth} {b} : Grew y (y.malformed b) := by
  cases b
  · exact grew_disconnect
  · exact grew_close

theorem grew_complete {cfg} {y : Auth} {b} : Grew y (y.complete cfg b) := .same rfl rfl id

theorem grew_fail {cfg} {y : Auth} {m b} : Grew y (y.fail cfg m b) := (grew_say (e := .failure m) rfl).trans grew_complete

theorem grew_failLater {y : Auth} {m} : Grew y (y.failLater m) := .same rfl rfl id

theorem grew_accept {cfg} {y : Auth} {r b} : Grew y (y.accept cfg r b) := by
  unfold Auth.accept
  simp only
  split
  · refine Grew.trans ?_ grew_close
    exact Grew.one (e := .loggedIn (y.login r.user r.method)) rfl rfl rfl fun _ => rfl
  · exact Grew.one (e := .loggedIn (y.login r.user r.method)) rfl rfl rfl fun _ => rfl
  · refine Grew.trans ?_ grew_complete
    refine Grew.two (e := .loggedIn (y.login r.user r.method)) (f := .success) ?_ rfl rfl fun _ => rfl
    simp

theorem grew_keyAccepted {cfg} {y : Auth} {r k b} : Grew y (y.keyAccepted cfg r k b) := by
  unfold Auth.keyAccepted
  simp only [Bool.cond_eq_ite]
  split
  · exact grew_fail
  · split
    · split
      · exact grew_malformed
      · exact (grew_say (e := .keyOk k.alg k.blob) rfl).trans grew_complete
    · split
      · exact grew_malformed
      · unfold Auth.checkKeySignature
        split
        · exact grew_fail
        · split
          · exact grew_fail
          · exact grew_failLater
          · exact grew_accept

theorem grew_publickey {cfg} {y : Auth} {r b} : Grew y (y.publickey cfg r b) := by
  unfold Auth.publickey
  split
  · exact grew_malformed
  · split
    · exact Grew.trans' grew_keyAccepted (Grew.same rfl rfl id)
    · simp only [Bool.cond_eq_ite]
      split
      · exact .same rfl rfl id
      · exact grew_failLater

theorem grew_hostBased {cfg} {y : Auth} {r b} : Grew y (y.hostBased cfg r b) := by
  unfold Auth.hostBased
  split
  · exact grew_malformed
  · split
    · exact grew_failLater
    · rename_i o _
      refine Grew.trans (b := { y with opts := o }) (Grew.same rfl rfl id) ?_
      unfold Auth.hostAccepted
      simp only [Bool.cond_eq_ite]
      split
      · exact grew_fail
      · split
        · exact grew_fail
        · split
          · exact Grew.trans' grew_accept (Grew.same rfl rfl id)
          · exact grew_fail

theorem grew_byMethod {cfg} {y : Auth} {r p b} : Grew y (y.byMethod cfg r p b) := by
  unfold Auth.byMethod
  simp only [Bool.cond_eq_ite]
  split
  · exact grew_publickey
  · split
    · exact grew_hostBased
    · split
      · exact grew_accept
      · exact grew_failLater

theorem grew_accountKnown {cfg} {y : Auth} {r p a b} : Grew y (y.accountKnown cfg r p a b) := by
  unfold Auth.accountKnown
  simp only [Bool.cond_eq_ite]
  split
  · exact grew_failLater
  · have : Grew y (y.applyAccount a p) := .same rfl rfl id
    split
    · exact this.trans grew_disconnect
    · exact this.trans grew_byMethod

theorem grew_lazyTranslate {cfg} {y : Auth} {r p b} : Grew y (y.lazyTranslate cfg r p b) := by
  unfold Auth.lazyTranslate
  simp only [Bool.cond_eq_ite]
  split
  · split
    · exact grew_accountKnown
    · exact .same rfl rfl id
  · exact .same rfl rfl id

theorem grew_afterTarpit {cfg} {y : Auth} {r b} : Grew y (y.afterTarpit cfg r b) := by
  unfold Auth.afterTarpit
  simp only [Bool.cond_eq_ite]
  split
  · exact grew_fail
  split
  · exact grew_disconnect
  split
  · unfold Auth.withTranslation
    simp only [Bool.cond_eq_ite]
    split
    · split
      · exact grew_malformed
      · split
        · exact grew_fail
        · exact grew_lazyTranslate
    · exact grew_lazyTranslate
  split
  · exact grew_failLater
  · exact grew_byMethod

theorem grew_userauth {cfg} {y : Auth} {p d} : Grew y (y.handleUserauthRequest cfg p d) := by
  unfold Auth.handleUserauthRequest
  simp only [Bool.cond_eq_ite]
  split
  · exact .rfl'
  split
  · exact grew_disconnect
  unfold Auth.userAuthRequest
  simp only [Bool.cond_eq_ite]
  split
  · exact grew_malformed
  · split
    · exact .same rfl rfl id
    · exact grew_afterTarpit

theorem grew_service {y : Auth} {p} : Grew y (y.serviceRequest p) := by
  unfold Auth.serviceRequest
  split
  · exact grew_malformed
  · split
    · rename_i name _ _
      exact Grew.one (e := .serviceAccepted name) rfl rfl rfl id
    · exact grew_disconnect

theorem grew_transport {y : Auth} {m} : Grew y (y.transportPacket m) := by
  unfold Auth.transportPacket
  split
  · exact grew_close
  split
  · exact .rfl'
  · exact grew_say rfl

theorem grew_channel {y : Auth} {m p} : Grew y (y.channelPacket m p) := by
  unfold Auth.channelPacket
  split
  · split
    · exact grew_malformed
    · unfold Auth.createChannel
      simp only [Bool.cond_eq_ite]
      repeat' split
      all_goals first | exact grew_disconnect | exact grew_malformed | exact grew_say rfl
  · exact grew_say rfl

theorem grew_global {y : Auth} {p} : Grew y (y.globalPacket p) := by
  unfold Auth.globalPacket
  split
  · exact grew_malformed
  · unfold Auth.globalRequest
    simp only [Bool.cond_eq_ite]
    split
    · split
      · exact grew_say rfl
      · split
        · exact grew_close
        · exact grew_say rfl
    split
    · split
      · exact grew_close
      · exact grew_say rfl
    split
    · exact Grew.one (e := .noMoreSessions) rfl rfl rfl id
    split
    · unfold Auth.optionsRequest
      simp only [Bool.cond_eq_ite]
      split
      · exact grew_say rfl
      · split
        · exact grew_close
        · split
          · exact Grew.one rfl rfl rfl id
          · exact grew_say rfl
    · exact grew_say rfl

theorem grew_packet {cfg} {y : Auth} {m p d} : Grew y (y.packet cfg m p d) := by
  unfold Auth.packet
  split
  · rename_i y' h
    unfold Auth.laterHandlers at h
    simp only [Bool.cond_eq_ite] at h
    split at h
    · cases h; exact grew_say rfl
    split at h
    · cases h; exact grew_channel
    split at h
    · cases h; exact grew_global
    · cases h
  · unfold Auth.userAuthPacket
    simp only [Bool.cond_eq_ite]
    split
    · exact grew_transport
    split
    · exact grew_disconnect
    split
    · exact grew_service
    split
    · exact grew_userauth
    · exact grew_transport

theorem grew_resume {cfg} {y : Auth} {t ev} : Grew y (y.resume cfg t ev) := by
  unfold Auth.resume
  split
  · exact Grew.trans' grew_afterTarpit (Grew.same rfl rfl id)
  · rename_i r pw a
    refine Grew.trans (b := { y with task := none }) (Grew.same rfl rfl id) ?_
    cases a with
    | none => exact grew_disconnect
    | some a => exact Grew.trans' grew_accountKnown (Grew.one (e := .account r.user pw a) rfl rfl rfl id)
  · rename_i r k text
    refine Grew.trans (b := { y with task := none }) (Grew.same rfl rfl id) ?_
    unfold Auth.homeRead
    simp only
    refine Grew.trans (grew_say (e := .homeKeys text) rfl) ?_
    split
    · exact Grew.trans' grew_keyAccepted (Grew.same rfl rfl id)
    · exact grew_failLater
  · exact grew_fail
  · exact Grew.same rfl rfl id
  · exact grew_close
  · exact .rfl'

/-- Events which are not packets and not the end of the first key exchange. -/
theorem grew_other {cfg} {y : Auth} {ev} (h : ev.isOther = true) : Grew y (y.step cfg ev) := by
  unfold Auth.step
  simp only [Bool.cond_eq_ite]
  split
  · exact .rfl'
  cases ev with
  | encrypted => cases h
  | packet => cases h
  | targetSuccess =>
    simp only
    split
    · refine Grew.trans (b := { y with targetDone := true }) (Grew.same rfl rfl id) ?_
      unfold Auth.targetReady
      split
      · exact grew_disconnect
      · exact Grew.two rfl rfl rfl id
    · exact .rfl'
  | targetPacket m p =>
    simp only
    split
    · split
      · exact Grew.two rfl rfl rfl id
      · exact grew_say rfl
    · exact .rfl'
  | targetDisconnecting => exact Grew.same rfl rfl id
  | targetGone =>
    simp only
    split
    · exact grew_disconnect
    · exact .rfl'
  | authTimeout =>
    simp only
    split
    · exact .rfl'
    · exact grew_disconnect
  | closed => exact grew_close
  | timer | translated | home | connected =>
    simp only
    split
    · exact .rfl'
    · exact grew_resume

/-- The end of the first key exchange. -/
theorem grew_encrypted {cfg} {y : Auth} (hs : y.stop = false) (he : y.encrypted = false) :
    (y.step cfg .encrypted).log = y.log ++ [.encrypted] ∧ (y.step cfg .encrypted).encrypted = true ∧
    (y.step cfg .encrypted).authenticated = y.authenticated := by
  simp [Auth.step, hs, he, Auth.say]

/-- A packet. -/
theorem grew_message {cfg} {y : Auth} (hs : y.stop = false) {m p d} :
    (∃ es, (y.step cfg (.packet m p d)).log = y.log ++ es ∧ clientMessages es = [m :: p]) ∧
    (y.step cfg (.packet m p d)).encrypted = y.encrypted ∧
    (y.authenticated = true → (y.step cfg (.packet m p d)).authenticated = true) ∧
    (y.channels = true → (y.step cfg (.packet m p d)).channels = true) := by
  have h : Grew (y.say (.received m p)) (y.step cfg (.packet m p d)) := by
    simp only [Auth.step, hs, cond_false]
    exact grew_packet
  obtain ⟨es, h1, h2⟩ := h.log
  refine ⟨⟨.received m p :: es, by rw [h1]; simp [Auth.say], ?_⟩, h.enc, h.mono, h.chan⟩
  have : clientMessages (.received m p :: es) = (m :: p) :: clientMessages es := rfl
  rw [this, h2]

end Lukko
