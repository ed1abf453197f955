import Verif.Proof.Ending
import Verif.Proof.Deadline
import Verif.Spec.Enumeration
/-
  What a client learns from a failed login.
-/
namespace Lukko
open Model Spec

theorem reply_append (a b : List AuthEntry) : view (a ++ b) = view a ++ view b := by simp [view]

/-- The answer if everything about the request is fine but it fails. -/
theorem localMethods {cfg : AuthCfg} (ht : cfg.translation = false) :
    authMethods cfg = (if !cfg.hostKeys.isEmpty then ascii "publickey,hostbased" else ascii "publickey") := by
  unfold authMethods
  rw [ht]
  cases cfg.hostKeys.isEmpty <;> rfl

/-- Waiting for something on behalf of this request. -/
def TaskFor (cfg : AuthCfg) (r : AuthReq) : Option AuthTask → Prop
  | some (.tarpit r') => r' = r
  | some (.home r' k) => r' = r ∧ r.method = ascii "publickey" ∧ parseKeyReq r.rest = some (k, k.rest) ∧
      r.service = ascii "ssh-connection" ∧ ValidUser r.user
  | some (.failSleep ms) => r.service = ascii "ssh-connection" ∧ ValidUser r.user ∧ ms = authMethods cfg
  | _ => False

/-- The request is well-formed. -/
structure Proper (r : AuthReq) : Prop where
  key : r.method = ascii "publickey" → PublicKeyFields r.rest
  host : r.method = ascii "hostbased" → HostBasedFields r.rest

/-- Processed, or still being processed. -/
def Progress (cfg : AuthCfg) (r : AuthReq) (y : Auth) (d : List AuthEntry) : Prop :=
  (∃ e ∈ d, e.isOther = true) ∨
  (view d = [] ∧ y.stop = false ∧ TaskFor cfg r y.task) ∨
  (∃ e, LocalAnswer (!cfg.hostKeys.isEmpty) r.user r.service e ∧ view d = [e] ∧ (y.task = none ∨ y.stop = true))

/-- Starting from `l`. -/
def Out (cfg : AuthCfg) (r : AuthReq) (l : List AuthEntry) (y : Auth) : Prop :=
  ∃ d, y.log = l ++ d ∧ (∀ m p, .received m p ∉ d) ∧ Progress cfg r y d

section
variable {cfg : AuthCfg} {r : AuthReq} {y : Auth} {async : Bool}

theorem out_fail (ht : cfg.translation = false) (h1 : r.service = ascii "ssh-connection") (h2 : ValidUser r.user) :
    Out cfg r y.log (y.fail cfg (authMethods cfg) async) :=
  ⟨[.failure (authMethods cfg)], rfl, by simp, .inr (.inr ⟨_, .inr (.inr ⟨h1, h2, by rw [localMethods ht]⟩), rfl, .inl rfl⟩)⟩

theorem out_failLater (hs : y.stop = false) (h1 : r.service = ascii "ssh-connection") (h2 : ValidUser r.user) :
    Out cfg r y.log (y.failLater (authMethods cfg)) :=
  ⟨[], by simp [Auth.failLater], by simp, .inr (.inl ⟨rfl, hs, h1, h2, rfl⟩)⟩

theorem out_accept : Out cfg r y.log (y.accept cfg r async) := by
  unfold Auth.accept
  simp only
  split
  · exact ⟨[.loggedIn (y.login r.user r.method), .closed], by simp [Auth.close], by simp,
      .inl ⟨.loggedIn (y.login r.user r.method), by simp, rfl⟩⟩
  · exact ⟨[.loggedIn (y.login r.user r.method)], rfl, by simp, .inl ⟨.loggedIn (y.login r.user r.method), by simp, rfl⟩⟩
  · exact ⟨[.loggedIn (y.login r.user r.method), .success], by simp [Auth.complete], by simp,
      .inl ⟨.loggedIn (y.login r.user r.method), by simp, rfl⟩⟩

theorem out_keyAccepted {k : KeyReq} (ht : cfg.translation = false) (hs : y.stop = false) (hp : Proper r)
    (h1 : r.service = ascii "ssh-connection") (h2 : ValidUser r.user) (hm : r.method = ascii "publickey")
    (hk : parseKeyReq r.rest = some (k, k.rest)) : Out cfg r y.log (y.keyAccepted cfg r k async) := by
  obtain ⟨alg, key, s1, s2, hf⟩ := hp.key hm
  unfold Auth.keyAccepted
  cases cfg.parseKey k.blob with
  | false => exact out_fail ht h1 h2
  | true =>
    simp only [Bool.not_true, cond_false]
    rcases hf with hf | ⟨b, sig, hb, s3, hf⟩
    · rw [hf, ← List.append_nil (str key), parseKeyReq_spec s1 s2] at hk
      simp only [Option.some.injEq, Prod.mk.injEq] at hk
      have e1 : k.withSig = false := by rw [← hk.1]; rfl
      have e2 : k.rest = [] := hk.2.symm
      rw [e1, e2]
      exact ⟨[.keyOk k.alg k.blob], rfl, by simp, .inl ⟨.keyOk k.alg k.blob, by simp, rfl⟩⟩
    · rw [hf, parseKeyReq_spec s1 s2] at hk
      simp only [Option.some.injEq, Prod.mk.injEq] at hk
      have e1 : k.withSig = true := by rw [← hk.1]; simpa using hb
      have e2 : k.rest = str sig := hk.2.symm
      rw [e1, e2, parseSignature_spec s3]
      simp only [Bool.not_true, cond_false]
      unfold Auth.checkKeySignature
      split
      · exact out_fail ht h1 h2
      · split
        · exact out_fail ht h1 h2
        · exact out_failLater hs h1 h2
        · exact out_accept

theorem out_byMethod (ht : cfg.translation = false) (hs : y.stop = false) (hp : Proper r)
    (h1 : r.service = ascii "ssh-connection") (h2 : ValidUser r.user) :
    Out cfg r y.log (y.byMethod cfg r false async) := by
  unfold Auth.byMethod
  split
  · rename_i hm
    obtain ⟨alg, key, s1, s2, hf⟩ := hp.key hm
    have hk : ∃ k, parseKeyReq r.rest = some (k, k.rest) := by
      rcases hf with hf | ⟨b, sig, hb, s3, hf⟩
      · exact ⟨_, by rw [hf, ← List.append_nil (str key), parseKeyReq_spec s1 s2]⟩
      · exact ⟨_, by rw [hf, parseKeyReq_spec s1 s2]⟩
    obtain ⟨k, hk⟩ := hk
    unfold Auth.publickey
    rw [hk]
    simp only
    split
    · rename_i o _
      exact out_keyAccepted (y := { y with opts := o }) ht hs hp h1 h2 hm hk
    · cases y.useHome with
      | false => exact out_failLater hs h1 h2
      | true => exact ⟨[], by simp, by simp, .inr (.inl ⟨rfl, hs, rfl, hm, hk, h1, h2⟩)⟩
  · split
    · rename_i hm
      obtain ⟨alg, key, host, user, sig, s1, s2, s3, s4, s5, hf⟩ := hp.host hm
      unfold Auth.hostBased
      rw [hf, parseHostReq_spec s1 s2 s3 s4 s5]
      simp only
      split
      · exact out_failLater hs h1 h2
      · rename_i o _
        unfold Auth.hostAccepted
        simp only
        cases cfg.parseKey key with
        | false => exact out_fail (y := { y with opts := o }) ht h1 h2
        | true =>
          simp only [Bool.not_true, cond_false]
          split
          · exact out_fail (y := { y with opts := o }) ht h1 h2
          · split
            · exact out_accept (y := { y with opts := o, hostbased := true })
            · exact out_fail (y := { y with opts := o }) ht h1 h2
    · exact out_failLater hs h1 h2

theorem out_afterTarpit (ht : cfg.translation = false) (hs : y.stop = false) (hp : Proper r) :
    Out cfg r y.log (y.afterTarpit cfg r async) := by
  unfold Auth.afterTarpit
  split
  · rename_i h1
    exact ⟨[.failure []], rfl, by simp, .inr (.inr ⟨_, .inl ⟨h1, rfl⟩, rfl, .inl rfl⟩)⟩
  · rename_i h1
    simp only [Decidable.not_not] at h1
    cases hv : isValidUsername r.user with
    | false =>
      refine ⟨[.disconnected 15], rfl, by simp, .inr (.inr ⟨_, .inr (.inl ⟨h1, fun hu => ?_, rfl⟩), rfl, .inr rfl⟩)⟩
      rw [(isValidUsername_iff _).mpr hu] at hv
      simp at hv
    | true =>
      have h2 := (isValidUsername_iff _).mp hv
      simp only [Bool.not_true, cond_false, ht]
      cases cfg.getpwnam r.user with
      | false => exact out_failLater hs h1 h2
      | true => exact out_byMethod ht hs hp h1 h2

/-- The request arrives. -/
theorem out_request {p : Bytes} {delay : Bool} (ht : cfg.translation = false) (hs : y.stop = false) (hp : Proper r)
    (hr : parseAuthReq p = some r) (h1 : y.userAuth = true) (h2 : y.task = none) (h3 : y.channels = false)
    (h4 : y.proxied = false) (h5 : y.authenticated = false) (h6 : y.haveService = true) :
    Out cfg r y.log (y.packet cfg 50 p delay) := by
  have e50 : ¬ (50 : UInt8) = MSG_SERVICE_REQUEST := by decide
  simp only [Auth.packet, Auth.laterHandlers, h3, h4, Bool.false_and, cond_false]
  unfold Auth.userAuthPacket
  simp only [h1, h2, Option.isSome_none, Bool.false_and, Bool.not_true, cond_false, e50, if_false, if_true,
    Auth.handleUserauthRequest, h5, h6, Auth.userAuthRequest, hr]
  cases delay with
  | true => exact ⟨[], by simp, by simp, .inr (.inl ⟨rfl, hs, rfl⟩)⟩
  | false => exact out_afterTarpit ht hs hp

end

theorem out_trans {cfg : AuthCfg} {r : AuthReq} {y y' : Auth} {b : List AuthEntry} {l : List AuthEntry}
    (hl : y.log = l ++ b) (hb : ∀ m p, .received m p ∉ b) (hv : view b = []) (h : Out cfg r y.log y') :
    Out cfg r l y' := by
  obtain ⟨d, h1, h2, h3⟩ := h
  refine ⟨b ++ d, by rw [h1, hl, List.append_assoc], fun m p hm => ?_, ?_⟩
  · rcases List.mem_append.mp hm with hm | hm
    · exact hb m p hm
    · exact h2 m p hm
  · rcases h3 with ⟨e, he, ho⟩ | ⟨hd, h3⟩ | ⟨e, h3, hd, h4⟩
    · exact .inl ⟨e, List.mem_append_right _ he, ho⟩
    · exact .inr (.inl ⟨by rw [reply_append, hv, hd]; rfl, h3⟩)
    · exact .inr (.inr ⟨e, h3, by rw [reply_append, hv, hd]; rfl, h4⟩)

/-- The request has not been processed completely. -/
theorem out_resume {cfg : AuthCfg} {r : AuthReq} {y : Auth} {t : AuthTask} (ht : cfg.translation = false)
    (hs : y.stop = false) (hp : Proper r) (htask : y.task = some t) (hf : TaskFor cfg r (some t)) (ev : AuthEv) :
    Out cfg r y.log (y.resume cfg t ev) := by
  have hself : Out cfg r y.log y := ⟨[], by simp, by simp, .inr (.inl ⟨rfl, hs, by rw [htask]; exact hf⟩)⟩
  unfold Auth.resume
  split
  · rename_i r'
    have e : r' = r := hf
    subst e
    exact out_afterTarpit (y := { y with task := none }) ht hs hp
  · exact absurd hf (by simp [TaskFor])
  · rename_i r' k text
    obtain ⟨e, h1, h2, h3, h4⟩ := hf
    subst e
    unfold Auth.homeRead
    simp only
    refine out_trans (y := Auth.say { y with task := none } (.homeKeys text)) (b := [.homeKeys text]) rfl (by simp) rfl ?_
    split
    · rename_i o _
      exact out_keyAccepted (y := { Auth.say { y with task := none } (.homeKeys text) with opts := o }) ht hs hp h3 h4 h1 h2
    · exact out_failLater hs h3 h4
  · rename_i ms
    obtain ⟨h1, h2, rfl⟩ := hf
    exact out_fail ht h1 h2
  · exact absurd hf (by simp [TaskFor])
  · exact absurd hf (by simp [TaskFor])
  · exact hself

/-- Nothing but what belongs to the request has happened. -/
def Alone (b : List AuthEntry) : Prop := ∀ e ∈ b, e.isOther = false

theorem Alone.noReceived {b : List AuthEntry} (h : Alone b) (m : UInt8) (p : Bytes) : .received m p ∉ b := by
  intro hm
  have := h _ hm
  simp [AuthEntry.isOther] at this

theorem Progress.alone {cfg : AuthCfg} {r : AuthReq} {y : Auth} {d : List AuthEntry} (h : Progress cfg r y d)
    (ha : Alone d) : (view d = [] ∧ y.stop = false ∧ TaskFor cfg r y.task) ∨
    (∃ e, LocalAnswer (!cfg.hostKeys.isEmpty) r.user r.service e ∧ view d = [e] ∧ (y.task = none ∨ y.stop = true)) := by
  rcases h with ⟨e, he, ho⟩ | h
  · rw [ha e he] at ho; simp at ho
  · exact h

/-- Something other than a message from the client happens. -/
theorem out_step {cfg : AuthCfg} {r : AuthReq} {y : Auth} {l b : List AuthEntry} (ht : cfg.translation = false)
    (hp : Proper r) (hpre : Pre cfg y) (hl : y.log = l ++ b) (ha : Alone b)
    (hpr : Progress cfg r y b) {ev : AuthEv} (hev : ∀ m p d, ev ≠ .packet m p d) :
    Out cfg r l (y.step cfg ev) := by
  have hb := ha.noReceived
  have hpa := hpr.alone ha
  have hself : Out cfg r l y := ⟨b, hl, hb, hpr⟩
  unfold Auth.step
  rcases Bool.eq_false_or_eq_true y.stop with hs | hs
  · rw [cond_of_true hs]; exact hself
  · rw [cond_of_false hs]
    split
    · cases y.encrypted with
      | true => exact hself
      | false =>
        refine ⟨b ++ [.encrypted], by simp [Auth.say, hl], by simpa using hb, ?_⟩
        rcases hpr with ⟨e, he, ho⟩ | ⟨hd, h3⟩ | ⟨e, h3, hd, h4⟩
        · exact .inl ⟨e, List.mem_append_left _ he, ho⟩
        · exact .inr (.inl ⟨by rw [reply_append, hd]; rfl, h3⟩)
        · exact .inr (.inr ⟨e, h3, by rw [reply_append, hd]; rfl, h4⟩)
    · exact absurd rfl (hev _ _ _)
    · rw [hpre.out]; exact hself
    · rw [hpre.prox]; exact hself
    · exact ⟨b, hl, hb, hpr⟩
    · rw [hpre.out]; exact hself
    · rw [hpre.auth]
      exact ⟨b ++ [.disconnected 10], by simp [Auth.disconnect, hl], by simpa using hb,
        .inl ⟨.disconnected 10, by simp, rfl⟩⟩
    · exact ⟨b ++ [.closed], by simp [Auth.close, hl], by simpa using hb, .inl ⟨.closed, by simp, rfl⟩⟩
    · split
      · exact hself
      · rename_i t htk
        rcases hpa with ⟨hd, _, h3⟩ | ⟨e, h3, hd, h4⟩
        · rw [htk] at h3
          exact out_trans hl hb hd (out_resume ht hs hp htk h3 _)
        · rw [htk, hs] at h4; simp at h4

theorem untimed_noReceived {d : List AuthEntry} (h : ∀ e ∈ d, untimed e = true) (m : UInt8) (p : Bytes) :
    .received m p ∉ d := by
  intro hm
  have := h _ hm
  simp [untimed] at this

/-- A message is processed at once. -/
theorem packet_received {cfg : AuthCfg} {y : Auth} (h : Pre cfg y) (m : UInt8) (p : Bytes) (delay : Bool) :
    ∃ d, (y.packet cfg m p delay).log = y.log ++ d ∧ ∀ m p, .received m p ∉ d := by
  have hfr : ∀ {y'}, Fr y y' → ∃ d, y'.log = y.log ++ d ∧ ∀ m p, .received m p ∉ d := by
    intro y' hf
    obtain ⟨d, h1, h2⟩ := hf.log
    exact ⟨d, h1, untimed_noReceived h2⟩
  have hself : ∃ d, y.log = y.log ++ d ∧ ∀ m p, .received m p ∉ d := ⟨[], by simp, by simp⟩
  have hl : y.laterHandlers m p = none := by simp [Auth.laterHandlers, h.prox, h.chan]
  unfold Auth.packet
  rw [hl]
  simp only
  unfold Auth.userAuthPacket
  cases y.userAuth with
  | false => exact hfr (fr_transport _ _).1
  | true =>
    simp only [Bool.not_true, cond_false]
    cases y.task.isSome && !allowedWhileOccupied m with
    | true => exact hfr (fr_disconnect _ _ (by decide))
    | false =>
      simp only [cond_false]
      split
      · unfold Auth.serviceRequest
        split
        · exact hfr (fr_malformed _ _)
        · split
          · exact ⟨_, rfl, by simp⟩
          · exact hfr (fr_disconnect _ _ (by decide))
      · split
        · unfold Auth.handleUserauthRequest
          cases y.authenticated with
          | true => exact hself
          | false =>
            simp only [cond_false]
            cases y.haveService with
            | false => exact hfr (fr_disconnect _ _ (by decide))
            | true => exact hfr (fr_userAuthRequest _ _ _)
        · exact hfr (fr_transport _ _).1

/-- Only the client sends messages. -/
theorem step_received {cfg : AuthCfg} {y : Auth} (h : Pre cfg y) {ev : AuthEv} (hev : ∀ m p d, ev ≠ .packet m p d) :
    ∃ d, (y.step cfg ev).log = y.log ++ d ∧ ∀ m p, .received m p ∉ d := by
  have hself : ∃ d, y.log = y.log ++ d ∧ ∀ m p, .received m p ∉ d := ⟨[], by simp, by simp⟩
  unfold Auth.step
  rcases Bool.eq_false_or_eq_true y.stop with hs | hs
  · rw [cond_of_true hs]; exact hself
  · rw [cond_of_false hs]
    split
    · cases y.encrypted with
      | true => exact hself
      | false => exact ⟨[.encrypted], rfl, by simp⟩
    · exact absurd rfl (hev _ _ _)
    · rw [h.out]; exact hself
    · rw [h.prox]; exact hself
    · exact hself
    · rw [h.out]; exact hself
    · rw [h.auth]; exact ⟨[.disconnected 10], rfl, by simp⟩
    · exact ⟨[.closed], rfl, by simp⟩
    · split
      · exact hself
      · obtain ⟨d, h1, h2⟩ := (fr_resume (cfg := cfg) y _ ev).log
        exact ⟨d, h1, untimed_noReceived h2⟩

/-- The last message in a log. -/
theorem last_received {a b l d : List AuthEntry} {m m' : UInt8} {p p' : Bytes}
    (h : l ++ .received m' p' :: d = a ++ .received m p :: b) (hd : ∀ m p, .received m p ∉ d)
    (hb : ∀ m p, .received m p ∉ b) : l = a ∧ m' = m ∧ p' = p ∧ d = b := by
  rcases List.append_eq_append_iff.mp h with ⟨c, h1, h2⟩ | ⟨c, h1, h2⟩
  · cases c with
    | nil =>
      simp only [List.nil_append, List.cons.injEq, AuthEntry.received.injEq] at h2
      exact ⟨by simpa using h1.symm, h2.1.1, h2.1.2, h2.2⟩
    | cons x c =>
      simp only [List.cons_append, List.cons.injEq] at h2
      exact absurd (by rw [h2.2]; simp) (hd m p)
  · cases c with
    | nil =>
      simp only [List.nil_append, List.cons.injEq, AuthEntry.received.injEq] at h2
      exact ⟨by simpa using h1, h2.1.1.symm, h2.1.2.symm, h2.2.symm⟩
    | cons x c =>
      simp only [List.cons_append, List.cons.injEq] at h2
      exact absurd (by rw [h2.2]; simp) (hb m' p')

/-- No message at the end. -/
theorem before_received {a b l d : List AuthEntry} {m : UInt8} {p : Bytes}
    (h : l ++ d = a ++ .received m p :: b) (hd : ∀ m p, .received m p ∉ d) :
    ∃ b', l = a ++ .received m p :: b' ∧ b = b' ++ d := by
  rcases List.append_eq_append_iff.mp h with ⟨c, h1, h2⟩ | ⟨c, h1, h2⟩
  · exact absurd (by rw [h2]; simp) (hd m p)
  · cases c with
    | nil =>
      simp only [List.nil_append] at h2
      exact absurd (by rw [← h2]; simp) (hd m p)
    | cons x c =>
      simp only [List.cons_append, List.cons.injEq] at h2
      exact ⟨c, by rw [h1, h2.1], h2.2⟩

/-- What a request has led to. -/
theorem progress_run {cfg : AuthCfg} (ht : cfg.translation = false) {r : AuthReq} {p : Bytes} (hp : Proper r)
    (hr : parseAuthReq p = some r) (evs : List AuthEv) : ∀ {a b : List AuthEntry},
    (Auth.run cfg {} evs).log = a ++ .received 50 p :: b → MayAsk a → Alone b →
    Progress cfg r (Auth.run cfg {} evs) b := by
  induction evs using Aux.snoc_ind with
  | h0 => intro a b h; simp [Auth.run] at h
  | h1 evs ev ih =>
    intro a b h hm ha
    rw [authRun_snoc] at h ⊢
    have hi := inv_run (cfg := cfg) evs
    have he := einv_run cfg evs
    generalize Auth.run cfg {} evs = y at h ih hi he ⊢
    have hno : ∀ lg, .loggedIn lg ∉ (y.step cfg ev).log := by
      intro lg hlg
      rw [h] at hlg
      rcases List.mem_append.mp hlg with hlg | hlg
      · exact hm.noLogin lg hlg
      · simp only [List.mem_cons, reduceCtorEq, false_or] at hlg
        have := ha _ hlg
        simp [AuthEntry.isOther] at this
    have hpre : Pre cfg y := by
      rcases hi with ⟨h1, _⟩ | h1
      · exact h1
      · obtain ⟨lg, hlg⟩ := h1.login
        obtain ⟨d, h2, _⟩ := (fwd_step h1 ev).log
        exact absurd (by rw [h2]; exact List.mem_append_left _ hlg) (hno lg)
    have hold : ∀ {d}, (y.step cfg ev).log = y.log ++ d → (∀ m p, .received m p ∉ d) →
        ∃ b', y.log = a ++ .received 50 p :: b' ∧ b = b' ++ d ∧ Alone b' ∧ Progress cfg r y b' := by
      intro d h1 h2
      rw [h1] at h
      obtain ⟨b', g1, g2⟩ := before_received h h2
      have g3 : Alone b' := fun e he' => ha e (by rw [g2]; exact List.mem_append_left _ he')
      exact ⟨b', g1, g2, g3, ih g1 hm g3⟩
    by_cases hev : ∃ m q d, ev = .packet m q d
    · obtain ⟨m, q, delay, rfl⟩ := hev
      rcases Bool.eq_false_or_eq_true y.stop with hs | hs
      · have e : y.step cfg (.packet m q delay) = y := by unfold Auth.step; rw [cond_of_true hs]
        rw [e] at h ⊢
        exact ih h hm ha
      · have e : y.step cfg (.packet m q delay) = (y.say (.received m q)).packet cfg m q delay := by
          unfold Auth.step; rw [cond_of_false hs]
        rw [e] at h ⊢
        obtain ⟨d, h1, h2⟩ := packet_received (pre_received hpre m q) m q delay
        have h3 := h1
        rw [h] at h3
        have h4 : y.log ++ .received m q :: d = a ++ .received 50 p :: b := by rw [h3]; simp [Auth.say]
        obtain ⟨rfl, rfl, rfl, rfl⟩ := last_received h4 h2 ha.noReceived
        have ht0 : y.task = none := by
          cases htk : y.task with
          | none => rfl
          | some t => exact absurd (he.task (by rw [htk]; rfl)) hm.notWaiting
        obtain ⟨d', g1, _, g2⟩ := out_request (y := y.say (.received 50 q)) (delay := delay) ht hs hp hr
          (he.ua hm.encrypted hm.noLogin) ht0 hpre.chan hpre.prox hpre.auth (he.svc.mpr hm.service)
        rw [h1] at g1
        rw [List.append_cancel_left g1]
        exact g2
    · have hev' : ∀ m q d, ev ≠ .packet m q d := fun m q d e => hev ⟨m, q, d, e⟩
      have hx : ∃ d, (y.step cfg ev).log = y.log ++ d ∧ ∀ m p, .received m p ∉ d := by
        exact step_received hpre hev'
      obtain ⟨d, h1, h2⟩ := hx
      obtain ⟨b', g1, g2, g3, g4⟩ := hold h1 h2
      obtain ⟨d', g5, _, g6⟩ := out_step (l := a ++ [.received 50 p]) (b := b') ht hp hpre (by rw [g1]; simp) g3 g4 hev'
      rw [h] at g5
      have g7 : a ++ ([.received 50 p] ++ b) = a ++ ([.received 50 p] ++ d') := by simpa using g5
      rw [List.append_cancel_left (List.append_cancel_left g7)]
      exact g6

end Lukko
