import Verif.Proof.ServerAuth
import Verif.Proof.AuthInv
import Verif.Proof.Parse
import Verif.Spec.Host
import Verif.Spec.Reverse
/-
  What an event adds to the record of the upper layer, as far as it matters to channels.
-/
namespace Lukko
open Spec Model

/-- Entries which have nothing to do with channels. -/
def plainEntry : AuthEntry → Bool
  | .received .. | .openSession | .restricted _ | .channelMessage .. | .connectTcp .. | .connectLocal _
  | .bindTcp .. | .unbindTcp .. => false
  | _ => true

/-- From `y` to `y'`, only such entries are added. -/
structure Placid (y y' : Auth) : Prop where
  log : ∃ es, y'.log = y.log ++ es ∧ es.all plainEntry = true

theorem Placid.rfl' {y : Auth} : Placid y y := ⟨⟨[], by simp, rfl⟩⟩

theorem Placid.trans {a b c : Auth} (h : Placid a b) (h' : Placid b c) : Placid a c := by
  obtain ⟨x, e1, d1⟩ := h.log
  obtain ⟨y, e2, d2⟩ := h'.log
  exact ⟨⟨x ++ y, by rw [e2, e1, List.append_assoc], by rw [List.all_append, d1, d2]; rfl⟩⟩

theorem Placid.trans' {a b c : Auth} (h' : Placid b c) (h : Placid a b) : Placid a c := h.trans h'

theorem Placid.same {y y' : Auth} (h : y'.log = y.log) : Placid y y' := ⟨⟨[], by simp [h], rfl⟩⟩

theorem Placid.one {y y' : Auth} {e : AuthEntry} (h : y'.log = y.log ++ [e]) (hn : plainEntry e = true) : Placid y y' :=
  ⟨⟨[e], h, by simp [hn]⟩⟩

theorem Placid.two {y y' : Auth} {e f : AuthEntry} (h : y'.log = y.log ++ [e, f]) (hn : (plainEntry e && plainEntry f) = true) :
    Placid y y' := ⟨⟨[e, f], h, by simpa using hn⟩⟩

theorem placid_say {y : Auth} {e : AuthEntry} (hn : plainEntry e = true) : Placid y (y.say e) := .one rfl hn

theorem placid_disconnect {y : Auth} {n} : Placid y (y.disconnect n) := .one rfl rfl

theorem placid_close {y : Auth} : Placid y y.close := .one rfl rfl

theorem placid_malformed {y : Auth} {b} : Placid y (y.malformed b) := by
  cases b
  · exact placid_disconnect
  · exact placid_close

theorem placid_complete {cfg} {y : Auth} {b} : Placid y (y.complete cfg b) := .same rfl

theorem placid_fail {cfg} {y : Auth} {m b} : Placid y (y.fail cfg m b) := (placid_say (e := .failure m) rfl).trans placid_complete

theorem placid_failLater {y : Auth} {m} : Placid y (y.failLater m) := .same rfl

theorem placid_accept {cfg} {y : Auth} {r b} : Placid y (y.accept cfg r b) := by
  unfold Auth.accept
  simp only
  split
  · refine Placid.trans ?_ placid_close
    exact Placid.one (e := .loggedIn (y.login r.user r.method)) rfl rfl
  · exact Placid.one (e := .loggedIn (y.login r.user r.method)) rfl rfl
  · refine Placid.trans ?_ placid_complete
    refine Placid.two (e := .loggedIn (y.login r.user r.method)) (f := .success) ?_ rfl
    simp

theorem placid_keyAccepted {cfg} {y : Auth} {r k b} : Placid y (y.keyAccepted cfg r k b) := by
  unfold Auth.keyAccepted
  simp only [Bool.cond_eq_ite]
  split
  · exact placid_fail
  · split
    · split
      · exact placid_malformed
      · exact (placid_say (e := .keyOk k.alg k.blob) rfl).trans placid_complete
    · split
      · exact placid_malformed
      · unfold Auth.checkKeySignature
        split
        · exact placid_fail
        · split
          · exact placid_fail
          · exact placid_failLater
          · exact placid_accept

theorem placid_publickey {cfg} {y : Auth} {r b} : Placid y (y.publickey cfg r b) := by
  unfold Auth.publickey
  split
  · exact placid_malformed
  · split
    · exact Placid.trans' placid_keyAccepted (Placid.same rfl)
    · simp only [Bool.cond_eq_ite]
      split
      · exact .same rfl
      · exact placid_failLater

theorem placid_hostBased {cfg} {y : Auth} {r b} : Placid y (y.hostBased cfg r b) := by
  unfold Auth.hostBased
  split
  · exact placid_malformed
  · split
    · exact placid_failLater
    · rename_i o _
      refine Placid.trans (b := { y with opts := o }) (Placid.same rfl) ?_
      unfold Auth.hostAccepted
      simp only [Bool.cond_eq_ite]
      split
      · exact placid_fail
      · split
        · exact placid_fail
        · split
          · exact Placid.trans' placid_accept (Placid.same rfl)
          · exact placid_fail

theorem placid_byMethod {cfg} {y : Auth} {r p b} : Placid y (y.byMethod cfg r p b) := by
  unfold Auth.byMethod
  simp only [Bool.cond_eq_ite]
  split
  · exact placid_publickey
  · split
    · exact placid_hostBased
    · split
      · exact placid_accept
      · exact placid_failLater

theorem placid_accountKnown {cfg} {y : Auth} {r p a b} : Placid y (y.accountKnown cfg r p a b) := by
  unfold Auth.accountKnown
  simp only [Bool.cond_eq_ite]
  split
  · exact placid_failLater
  · have : Placid y (y.applyAccount a p) := .same rfl
    split
    · exact this.trans placid_disconnect
    · exact this.trans placid_byMethod

theorem placid_lazyTranslate {cfg} {y : Auth} {r p b} : Placid y (y.lazyTranslate cfg r p b) := by
  unfold Auth.lazyTranslate
  simp only [Bool.cond_eq_ite]
  split
  · split
    · exact placid_accountKnown
    · exact .same rfl
  · exact .same rfl

theorem placid_afterTarpit {cfg} {y : Auth} {r b} : Placid y (y.afterTarpit cfg r b) := by
  unfold Auth.afterTarpit
  simp only [Bool.cond_eq_ite]
  split
  · exact placid_fail
  split
  · exact placid_disconnect
  split
  · unfold Auth.withTranslation
    simp only [Bool.cond_eq_ite]
    split
    · split
      · exact placid_malformed
      · split
        · exact placid_fail
        · exact placid_lazyTranslate
    · exact placid_lazyTranslate
  split
  · exact placid_failLater
  · exact placid_byMethod

theorem placid_userauth {cfg} {y : Auth} {p d} : Placid y (y.handleUserauthRequest cfg p d) := by
  unfold Auth.handleUserauthRequest
  simp only [Bool.cond_eq_ite]
  split
  · exact .rfl'
  split
  · exact placid_disconnect
  unfold Auth.userAuthRequest
  simp only [Bool.cond_eq_ite]
  split
  · exact placid_malformed
  · split
    · exact .same rfl
    · exact placid_afterTarpit

theorem placid_service {y : Auth} {p} : Placid y (y.serviceRequest p) := by
  unfold Auth.serviceRequest
  split
  · exact placid_malformed
  · split
    · rename_i name _ _
      exact Placid.one (e := .serviceAccepted name) rfl rfl
    · exact placid_disconnect

theorem placid_transport {y : Auth} {m} : Placid y (y.transportPacket m) := by
  unfold Auth.transportPacket
  split
  · exact placid_close
  split
  · exact .rfl'
  · exact placid_say rfl

theorem placid_resume {cfg} {y : Auth} {t ev} : Placid y (y.resume cfg t ev) := by
  unfold Auth.resume
  split
  · exact Placid.trans' placid_afterTarpit (Placid.same rfl)
  · rename_i r pw a
    refine Placid.trans (b := { y with task := none }) (Placid.same rfl) ?_
    cases a with
    | none => exact placid_disconnect
    | some a => exact Placid.trans' placid_accountKnown (Placid.one (e := .account r.user pw a) rfl rfl)
  · rename_i r k text
    refine Placid.trans (b := { y with task := none }) (Placid.same rfl) ?_
    unfold Auth.homeRead
    simp only
    refine Placid.trans (placid_say (e := .homeKeys text) rfl) ?_
    split
    · exact Placid.trans' placid_keyAccepted (Placid.same rfl)
    · exact placid_failLater
  · exact placid_fail
  · exact Placid.same rfl
  · exact placid_close
  · exact .rfl'

/-- Events which are not packets and not the end of the first key exchange. -/
theorem placid_other {cfg} {y : Auth} {ev} (h : ev.isOther = true) : Placid y (y.step cfg ev) := by
  unfold Auth.step
  simp only [Bool.cond_eq_ite]
  split
  · exact .rfl'
  cases ev with
  | encrypted => cases h
  | packet => cases h
  | targetSuccess =>
    simp only
    split
    · refine Placid.trans (b := { y with targetDone := true }) (Placid.same rfl) ?_
      unfold Auth.targetReady
      split
      · exact placid_disconnect
      · exact Placid.two rfl rfl
    · exact .rfl'
  | targetPacket m p =>
    simp only
    split
    · split
      · exact Placid.two rfl rfl
      · exact placid_say rfl
    · exact .rfl'
  | targetDisconnecting => exact Placid.same rfl
  | targetGone =>
    simp only
    split
    · exact placid_disconnect
    · exact .rfl'
  | authTimeout =>
    simp only
    split
    · exact .rfl'
    · exact placid_disconnect
  | closed => exact placid_close
  | timer | translated | home | connected =>
    simp only
    split
    · exact .rfl'
    · exact placid_resume

/-- Messages which a session channel may be told about. -/
def heardMsg (m : UInt8) : Bool := [93, 94, 95, 96, 98].contains m

/-- What an event adds to the record. -/
inductive News (y y' : Auth) : List AuthEntry → Prop
  | calm {es} : es.all plainEntry = true → News y y' es
  /-- a message which is not for a channel -/
  | other {m p es} : es.all plainEntry = true → heardMsg m = false ∨ y.channels = false ∨ y.proxied = true →
      News y y' (.received m p :: es)
  | opened {p q} : y.channels = true → parseChannelOpen.parse p = some q → q.type = ascii "session" →
      News y y' [.received 90 p, .openSession]
  | forward {p q e} : y.channels = true → parseChannelOpen.parse p = some q → Asks q.type q.rest e →
      News y y' [.received 90 p, e]
  | bind {p e} : y.channels = true → AsksBind p e → News y y' [.received 80 p, e]
  | restricted {p r} : y'.opts.restrictions = r → News y y' [.received 80 p, .restricted r]
  | message {m p} : y.channels = true → News y y' [.received m p, .channelMessage m p]

theorem News.of {y y' : Auth} (h : Placid y y') : ∃ es, y'.log = y.log ++ es ∧ News y y' es := by
  obtain ⟨es, h1, h2⟩ := h.log
  exact ⟨es, h1, .calm h2⟩

theorem News.msg {y y' : Auth} {m p} (h : Placid (y.say (.received m p)) y')
    (hm : heardMsg m = false ∨ y.channels = false ∨ y.proxied = true) : ∃ es, y'.log = y.log ++ es ∧ News y y' es := by
  obtain ⟨es, h1, h2⟩ := h.log
  exact ⟨.received m p :: es, by rw [h1]; simp [Auth.say], .other h2 hm⟩

theorem asks_tcp {data : Bytes} {host port} (h : parseDirectTcp.parse data = some (host, port)) :
    Asks (ascii "direct-tcpip") data (.connectTcp host port) := by
  obtain ⟨s, hp0⟩ := parse_inv h
  obtain ⟨a, s1, h1, hp1⟩ := bind_inv hp0
  obtain ⟨b, s2, h2, hp2⟩ := bind_inv hp1
  obtain ⟨c, s3, h3, hp3⟩ := bind_inv hp2
  obtain ⟨d, s4, h4, hp4⟩ := bind_inv hp3
  obtain ⟨_, s5, h5, hp5⟩ := bind_inv hp4
  obtain ⟨rfl, _⟩ := readString_inv h1
  obtain ⟨rfl, _⟩ := readU32_inv h2
  obtain ⟨rfl, _⟩ := readString_inv h3
  obtain ⟨rfl, _⟩ := readU32_inv h4
  obtain ⟨rfl, rfl⟩ := expectEnd_inv h5
  simp only [pure_apply, Option.some.injEq, Prod.mk.injEq] at hp5
  obtain ⟨⟨rfl, rfl⟩, _⟩ := hp5
  rw [List.append_nil]
  exact .tcp

theorem asks_what {type rest : Bytes} {e} (h : Asks type rest e) : (∃ host port, e = .connectTcp host port) ∨ ∃ path, e = .connectLocal path := by
  cases h
  · exact .inl ⟨_, _, rfl⟩
  · exact .inr ⟨_, rfl⟩

theorem asks_unix {data path : Bytes} (h : readString.parse data = some path) :
    Asks (ascii "direct-streamlocal@openssh.com") data (.connectLocal path) := by
  obtain ⟨s, hp0⟩ := parse_inv h
  obtain ⟨rfl, _⟩ := readString_inv hp0
  exact .unix

theorem news_channel {y y0 : Auth} {m p} (hy : y0 = y.say (.received m p)) (hc : y.channels = true) :
    ∃ es, (y0.channelPacket m p).log = y.log ++ es ∧ News y (y0.channelPacket m p) es := by
  subst hy
  unfold Auth.channelPacket
  split
  · rename_i hm
    have hm' : heardMsg m = false ∨ y.channels = false ∨ y.proxied = true := .inl (by rw [hm]; rfl)
    split
    · exact News.msg (m := m) (p := p) placid_malformed hm'
    · rename_i q hq
      unfold Auth.createChannel
      simp only [Bool.cond_eq_ite]
      split
      · rename_i ht
        split
        · exact News.msg (m := m) (p := p) placid_disconnect hm'
        · refine ⟨[.received 90 p, .openSession], ?_, .opened hc hq ht⟩
          rw [hm]
          simp [Auth.say]
      split
      · rename_i ht
        split
        · exact News.msg (m := m) (p := p) (placid_say rfl) hm'
        · split
          · exact News.msg (m := m) (p := p) placid_malformed hm'
          · rename_i host port hd
            refine ⟨[.received 90 p, .connectTcp host port], ?_, .forward hc hq (by rw [ht]; exact asks_tcp hd)⟩
            rw [hm]
            simp [Auth.say]
      split
      · rename_i ht
        split
        · exact News.msg (m := m) (p := p) (placid_say rfl) hm'
        · split
          · exact News.msg (m := m) (p := p) placid_malformed hm'
          · rename_i path hd
            refine ⟨[.received 90 p, .connectLocal path], ?_, .forward hc hq (by rw [ht]; exact asks_unix hd)⟩
            rw [hm]
            simp [Auth.say]
      · exact News.msg (m := m) (p := p) (placid_say rfl) hm'
  · refine ⟨[.received m p, .channelMessage m p], ?_, .message hc⟩
    simp [Auth.say]

theorem bind_inv_global {p : Bytes} {q : PGlobalRequest} {host : Bytes} {port : Nat} (hq : parseGlobalRequest.parse p = some q)
    (hd : parseBind.parse q.rest = some (host, port)) : ∃ w, p = str q.name ++ (w :: (str host ++ u32 port)) := by
  obtain ⟨s, hp0⟩ := parse_inv hq
  obtain ⟨a, s1, h1, hp1⟩ := bind_inv hp0
  obtain ⟨b, s2, h2, hp2⟩ := bind_inv hp1
  obtain ⟨c, s3, h3, hp3⟩ := bind_inv hp2
  obtain ⟨rfl, _⟩ := readString_inv h1
  obtain ⟨w, rfl, _⟩ := readBool_inv h2
  cases h3
  cases hp3
  obtain ⟨s, hp0⟩ := parse_inv hd
  obtain ⟨a', s1', h1', hp1⟩ := bind_inv hp0
  obtain ⟨b', s2', h2', hp2⟩ := bind_inv hp1
  obtain ⟨_, s3', h3', hp3⟩ := bind_inv hp2
  obtain ⟨rfl, _⟩ := readString_inv h1'
  obtain ⟨rfl, _⟩ := readU32_inv h2'
  obtain ⟨rfl, rfl⟩ := expectEnd_inv h3'
  cases hp3
  exact ⟨w, by simp⟩

theorem news_global {y y0 : Auth} {p} (hc : y.channels = true) (hy : y0 = y.say (.received 80 p)) :
    ∃ es, (y0.globalPacket p).log = y.log ++ es ∧ News y (y0.globalPacket p) es := by
  have hm' : heardMsg 80 = false ∨ y.channels = false ∨ y.proxied = true := .inl rfl
  subst hy
  unfold Auth.globalPacket
  split
  · exact News.msg (p := p) placid_malformed hm'
  · rename_i q hq
    unfold Auth.globalRequest
    simp only [Bool.cond_eq_ite]
    split
    · rename_i hn
      split
      · exact News.msg (p := p) (placid_say rfl) hm'
      · split
        · exact News.msg (p := p) placid_close hm'
        · rename_i host port hd
          obtain ⟨w, rfl⟩ := bind_inv_global hq hd
          rw [hn]
          exact ⟨[.received 80 _, .bindTcp host port], List.append_assoc .., .bind hc .bind⟩
    split
    · rename_i hn
      split
      · exact News.msg (p := p) placid_close hm'
      · rename_i host port hd
        obtain ⟨w, rfl⟩ := bind_inv_global hq hd
        rw [hn]
        exact ⟨[.received 80 _, .unbindTcp host port], List.append_assoc .., .bind hc .unbind⟩
    split
    · exact News.msg (p := p) (Placid.one (e := .noMoreSessions) rfl rfl) hm'
    split
    · unfold Auth.optionsRequest
      simp only [Bool.cond_eq_ite]
      split
      · exact News.msg (p := p) (placid_say rfl) hm'
      · split
        · exact News.msg (p := p) placid_close hm'
        · split
          · refine ⟨[.received 80 p, .restricted _], ?_, .restricted rfl⟩
            simp [Auth.say]
          · exact News.msg (p := p) (placid_say rfl) hm'
    · exact News.msg (p := p) (placid_say rfl) hm'

theorem news_packet {cfg} {y : Auth} {m p d} :
    ∃ es, ((y.say (.received m p)).packet cfg m p d).log = y.log ++ es ∧ News y ((y.say (.received m p)).packet cfg m p d) es := by
  unfold Auth.packet
  split
  · rename_i y' h
    unfold Auth.laterHandlers at h
    cases h1 : (y.say (.received m p)).proxied && shouldProxy m with
    | true =>
      rw [h1] at h
      cases h
      rw [Bool.and_eq_true] at h1
      exact News.msg (placid_say (e := .toTarget m p) rfl) (.inr (.inr h1.1))
    | false =>
    rw [h1] at h
    cases h2 : (y.say (.received m p)).channels && isChannelMessage m with
    | true =>
      rw [h2] at h
      cases h
      rw [Bool.and_eq_true] at h2
      exact news_channel rfl h2.1
    | false =>
    rw [h2] at h
    cases h3 : (y.say (.received m p)).channels && (m == MSG_GLOBAL_REQUEST) with
    | true =>
      rw [h3] at h
      cases h
      rw [Bool.and_eq_true] at h3
      have hm : m = 80 := by simpa using h3.2
      subst hm
      exact news_global h3.1 rfl
    | false => rw [h3] at h; cases h
  · rename_i h
    have hm : heardMsg m = false ∨ y.channels = false ∨ y.proxied = true := by
      unfold Auth.laterHandlers at h
      cases h2 : (y.say (.received m p)).channels && isChannelMessage m with
      | true =>
        rw [h2] at h
        cases h1 : (y.say (.received m p)).proxied && shouldProxy m with
        | true => rw [h1] at h; cases h
        | false => rw [h1] at h; cases h
      | false =>
        cases hc : y.channels with
        | false => exact .inr (.inl rfl)
        | true =>
          have hc' : (y.say (.received m p)).channels = true := hc
          rw [hc', Bool.true_and] at h2
          refine .inl ?_
          cases hh : heardMsg m with
          | false => rfl
          | true =>
            simp only [heardMsg, List.contains_iff_mem, List.mem_cons, List.not_mem_nil, or_false] at hh
            rcases hh with hh | hh | hh | hh | hh <;> rw [hh] at h2 <;> cases h2
    unfold Auth.userAuthPacket
    simp only [Bool.cond_eq_ite]
    split
    · exact News.msg placid_transport hm
    split
    · exact News.msg placid_disconnect hm
    split
    · exact News.msg placid_service hm
    split
    · exact News.msg placid_userauth hm
    · exact News.msg placid_transport hm

/-- **What an event adds to the record of the upper layer.** -/
theorem news_step (cfg) (y : Auth) (ev : AuthEv) :
    ∃ es, (y.step cfg ev).log = y.log ++ es ∧ News y (y.step cfg ev) es := by
  cases hs : y.stop with
  | true =>
    have : y.step cfg ev = y := by simp only [Auth.step, hs, cond_true]
    rw [this]
    exact News.of .rfl'
  | false =>
    cases ev with
    | packet m p d =>
      simp only [Auth.step, hs, cond_false]
      exact news_packet
    | encrypted =>
      refine News.of ?_
      simp only [Auth.step, hs, cond_false]
      cases y.encrypted with
      | true => exact .rfl'
      | false => exact Placid.one (e := .encrypted) rfl rfl
    | _ => exact News.of (placid_other rfl)

end Lukko
