import Verif.Proof.Tally
import Verif.Proof.AuthInv
/-
  One event: the books (Model/Tally.lean) and the log of a connection.
-/
namespace Lukko
open Model Spec

/-- Nothing that matters for the books. -/
def offBook : AuthEntry → Bool
  | .received .. | .account .. | .loggedIn .. | .failure .. | .keyOk .. => false
  | _ => true

/-- Nothing happens that matters for the books. -/
structure OffBook (y z : Auth) : Prop where
  log : ∃ d, z.log = y.log ++ d ∧ ∀ e ∈ d, offBook e = true
  task : z.task = y.task
  tr : z.translation = y.translation

theorem OffBook.refl (y : Auth) : OffBook y y := ⟨⟨[], by simp, by simp⟩, rfl, rfl⟩

theorem OffBook.one {y z : Auth} {e : AuthEntry} (he : offBook e = true := by rfl)
    (h1 : z.log = y.log ++ [e] := by rfl) (h2 : z.task = y.task := by rfl)
    (h3 : z.translation = y.translation := by rfl) : OffBook y z := ⟨⟨[e], h1, by simpa using he⟩, h2, h3⟩

theorem offBook_malformed (y : Auth) (b : Bool) : OffBook y (y.malformed b) := by
  cases b
  · exact .one (e := .disconnected 2)
  · exact .one (e := .closed)

theorem offBook_transport (y : Auth) (m : UInt8) : OffBook y (y.transportPacket m) := by
  unfold Auth.transportPacket
  split
  · exact .one (e := .closed)
  · split
    · exact .refl y
    · exact .one (e := .unimplemented)

theorem offBook_service (y : Auth) (p : Bytes) : OffBook y (y.serviceRequest p) := by
  unfold Auth.serviceRequest
  split
  · exact offBook_malformed y _
  · split
    · rename_i name _ _; exact .one (e := .serviceAccepted name)
    · exact .one (e := .disconnected 7)

theorem offBook_channel (y : Auth) (m : UInt8) (p : Bytes) : OffBook y (y.channelPacket m p) := by
  unfold Auth.channelPacket
  split
  · split
    · exact offBook_malformed y _
    · unfold Auth.createChannel
      split
      · cases y.noMoreSessions
        · exact .one (e := .openSession)
        · exact .one (e := .disconnected 2)
      split
      · cases y.isForwardingAllowed
        · exact .one (e := .openRefused 1)
        · simp only [Bool.not_true, cond_false]
          split
          · exact offBook_malformed y _
          · rename_i host port _; exact .one (e := .connectTcp host port)
      split
      · cases y.isLocalForwardingAllowed
        · exact .one (e := .openRefused 1)
        · simp only [Bool.not_true, cond_false]
          split
          · exact offBook_malformed y _
          · rename_i path _; exact .one (e := .connectLocal path)
      · exact .one (e := .openRefused 3)
  · exact .one (e := .channelMessage m p)

theorem offBook_global (y : Auth) (p : Bytes) : OffBook y (y.globalPacket p) := by
  unfold Auth.globalPacket
  split
  · exact offBook_malformed y _
  · unfold Auth.globalRequest
    split
    · cases y.isForwardingAllowed
      · exact .one (e := .requestRefused _)
      · simp only [Bool.not_true, cond_false]
        split
        · exact .one (e := .closed)
        · rename_i host port _; exact .one (e := .bindTcp host port)
    split
    · split
      · exact .one (e := .closed)
      · rename_i host port _; exact .one (e := .unbindTcp host port)
    split
    · exact .one (e := .noMoreSessions)
    split
    · unfold Auth.optionsRequest
      cases y.hostbased
      · exact .one (e := .requestRefused _)
      · simp only [Bool.not_true, cond_false]
        split
        · exact .one (e := .closed)
        · rename_i o _
          cases (y.opts.restrict o).2
          · exact .one (e := .requestRefused _)
          · exact .one (e := .restricted _)
    · exact .one (e := .requestRefused _)

theorem offBook_later {y z : Auth} {m : UInt8} {p : Bytes} (h : y.laterHandlers m p = some z) : OffBook y z := by
  unfold Auth.laterHandlers at h
  cases h1 : y.proxied && shouldProxy m
  · rw [h1, cond_false] at h
    cases h2 : y.channels && isChannelMessage m
    · rw [h2, cond_false] at h
      cases h3 : y.channels && (m == MSG_GLOBAL_REQUEST)
      · rw [h3, cond_false] at h; cases h
      · rw [h3, cond_true] at h; cases h; exact offBook_global y p
    · rw [h2, cond_true] at h; cases h; exact offBook_channel y m p
  · rw [h1, cond_true] at h; cases h; exact .one (e := .toTarget m p)

/-! ### Passwords being checked -/

theorem guessing_fail (cfg : AuthCfg) (y : Auth) (m : Bytes) (a : Bool) : guessing (y.fail cfg m a).task = 0 := rfl
theorem guessing_failLater (y : Auth) (m : Bytes) : guessing (y.failLater m).task = 0 := rfl

theorem guessing_malformed {y : Auth} (ht : y.task = none) (a : Bool) : guessing (y.malformed a).task = 0 := by
  rw [(offBook_malformed y a).task, ht]; rfl

theorem guessing_accept {cfg : AuthCfg} {y : Auth} (ht : y.task = none) (r : AuthReq) (a : Bool) :
    guessing (y.accept cfg r a).task = 0 := by
  unfold Auth.accept
  simp only
  split
  · show guessing y.task = 0; rw [ht]; rfl
  · rfl
  · rfl

theorem guessing_keyAccepted {cfg : AuthCfg} {y : Auth} (ht : y.task = none) (r : AuthReq) (k : KeyReq) (a : Bool) :
    guessing (y.keyAccepted cfg r k a).task = 0 := by
  unfold Auth.keyAccepted
  cases cfg.parseKey k.blob
  · rfl
  · cases k.withSig
    · cases k.rest.isEmpty
      · exact guessing_malformed ht a
      · rfl
    · simp only [Bool.not_true, cond_false]
      split
      · exact guessing_malformed ht a
      · unfold Auth.checkKeySignature
        split
        · rfl
        · split
          · rfl
          · rfl
          · exact guessing_accept ht r a

theorem guessing_hostAccepted {cfg : AuthCfg} {y : Auth} (ht : y.task = none) (r : AuthReq) (q : HostReq) (a : Bool) :
    guessing (y.hostAccepted cfg r q a).task = 0 := by
  unfold Auth.hostAccepted
  cases cfg.parseKey q.blob
  · rfl
  · simp only [Bool.not_true, cond_false]
    split
    · rfl
    · split
      · exact guessing_accept (y := { y with hostbased := true }) ht r a
      · rfl

theorem guessing_byMethod {cfg : AuthCfg} {y : Auth} (ht : y.task = none) (r : AuthReq) (pa a : Bool) :
    guessing (y.byMethod cfg r pa a).task = 0 := by
  unfold Auth.byMethod
  split
  · unfold Auth.publickey
    split
    · exact guessing_malformed ht a
    · split
      · rename_i o _; exact guessing_keyAccepted (y := { y with opts := o }) ht r _ a
      · cases y.useHome <;> rfl
  · split
    · unfold Auth.hostBased
      split
      · exact guessing_malformed ht a
      · split
        · rfl
        · rename_i o _; exact guessing_hostAccepted (y := { y with opts := o }) ht r _ a
    · cases pa
      · rfl
      · exact guessing_accept ht r a

theorem guessing_accountKnown {cfg : AuthCfg} {y : Auth} (ht : y.task = none) (r : AuthReq) (p : Bytes) (acct : Account)
    (a : Bool) : guessing (y.accountKnown cfg r p acct a).task = 0 := by
  unfold Auth.accountKnown
  cases acct.ok
  · rfl
  · simp only [Bool.not_true, cond_false]
    cases acct.shell && !acct.shellValid
    · exact guessing_byMethod (y := y.applyAccount acct p) ht r _ a
    · show guessing y.task = 0; rw [ht]; rfl

theorem guessing_lazy {cfg : AuthCfg} {y : Auth} (ht : y.task = none) (r : AuthReq) (p : Bytes) (a : Bool) :
    guessing (y.lazyTranslate cfg r p a).task ≤ (!p.isEmpty).toNat := by
  cases h : y.translation with
  | none => rw [lazyTranslate_none h]; exact Nat.le_refl _
  | some t =>
    rw [lazyTranslate_some h]
    cases p.isEmpty && t.user == r.user
    · exact Nat.le_refl _
    · rw [cond_true, guessing_accountKnown ht]; exact Nat.zero_le _

/-- Whoever wants a password to be checked has paid for it. -/
theorem guessing_after {cfg : AuthCfg} {y : Auth} (ht : y.task = none) (r : AuthReq) (a : Bool) :
    oneToken * guessing (y.afterTarpit cfg r a).task ≤ paid (y.tallyAfter cfg r) := by
  unfold Auth.afterTarpit Auth.tallyAfter
  split
  · exact Nat.zero_le _
  cases isValidUsername r.user
  · show oneToken * guessing y.task ≤ _; rw [ht]; exact Nat.zero_le _
  simp only [Bool.not_true, cond_false]
  cases cfg.translation
  · simp only [cond_false]
    cases cfg.getpwnam r.user
    · exact Nat.zero_le _
    · simp only [Bool.not_true, cond_false]
      rw [guessing_byMethod ht]; exact Nat.zero_le _
  · simp only [cond_true]
    unfold Auth.withTranslation Auth.tallyTranslation
    split
    · cases hp : parsePassword r.rest with
      | none => simp only [guessing_malformed ht]; exact Nat.zero_le _
      | some x =>
        obtain ⟨⟨change, p⟩, rest⟩ := x
        simp only
        cases change
        · cases he : p.isEmpty
          · simp only [Bool.false_or, cond_false]
            have := guessing_lazy (cfg := cfg) ht r p a
            rw [he] at this
            simp only [Bool.not_false, Bool.toNat_true] at this
            rw [paid_tokens]
            simp only [oneToken]
            omega
          · exact Nat.zero_le _
        · exact Nat.zero_le _
    · have := guessing_lazy (cfg := cfg) ht r [] a
      simp only [List.isEmpty_nil, Bool.not_true, Bool.toNat_false] at this
      rw [Nat.le_zero.mp this]; exact Nat.zero_le _

theorem paid_account {cfg : AuthCfg} {y : Auth} {r : AuthReq} {p : Bytes} {acct : Account} (h : acct.ok = false) :
    8 * oneToken ≤ paid (y.tallyAccount cfg r p acct) := by
  unfold Auth.tallyAccount
  rw [h]
  simp only [Bool.not_false, cond_true]
  rw [paid_tokens]
  exact Nat.le_add_right _ _

/-! ### Events -/

/-- What one event does to the log, the task and the books; `w`: "accepted" was counted without a login. -/
structure StepBook (w : Nat) (t : Option AuthTask) (d : List AuthEntry) (t' : Option AuthTask) (ts : List Tally) : Prop where
  pk : counted .publickeyAccepted ts = loginsBy (ascii "publickey") d
  hb : counted .hostbasedAccepted ts = loginsBy (ascii "hostbased") d
  all : loginCount d + w = countedAccepted ts
  fl1 : countedFailed ts + pendFail t ≤ failures d + pendFail t'
  fl2 : failures d + pendFail t' + reserve t' ≤ countedFailed ts + pendFail t + reserve t + uncountedRequests d
  one : answered d + busy t' ≤ counted .received ts + busy t
  pay : oneToken * (verdicts d + guessing t') + 8 * oneToken * wrongPasswords d ≤ paid ts + oneToken * guessing t

/-- Nothing happens. -/
theorem stepBook_calm {t t' : Option AuthTask} {d : List AuthEntry} {ts : List Tally} (hd : ∀ e ∈ d, offBook e = true)
    (ht : t' = t ∨ t' = none ∧ t = some .connect) (h1 : countedAccepted ts = 0) (h2 : countedFailed ts = 0) :
    StepBook 0 t d t' ts := by
  have z : ∀ p : AuthEntry → Bool, (∀ e, offBook e = true → p e = false) → d.countP p = 0 := by
    intro p hp
    rw [List.countP_eq_zero]
    intro e he
    rw [hp e (hd e he)]; exact Bool.false_ne_true
  have z1 : ∀ m, loginsBy m d = 0 := fun m => z _ (by intro e; cases e <;> simp [offBook])
  have z2 : loginCount d = 0 := z _ (by intro e; cases e <;> simp [offBook])
  have z3 : failures d = 0 := z _ (by intro e; cases e <;> simp [offBook])
  have z4 : answered d = 0 := z _ (by intro e; cases e <;> simp [offBook])
  have z5 : verdicts d = 0 := z _ (by intro e; cases e <;> simp [offBook])
  have z6 : wrongPasswords d = 0 := z _ (by intro e; cases e <;> simp [offBook])
  simp only [countedAccepted] at h1
  have e1 : pendFail t' = pendFail t ∧ reserve t' = reserve t ∧ busy t' = busy t ∧ guessing t' = guessing t := by
    rcases ht with rfl | ⟨rfl, rfl⟩ <;> exact ⟨rfl, rfl, rfl, rfl⟩
  obtain ⟨e1, e2, e3, e4⟩ := e1
  exact ⟨by rw [z1]; omega, by rw [z1]; omega, by simp only [countedAccepted]; omega, by omega, by omega, by omega, by rw [z5, z6, e4]; simp only [oneToken]; omega⟩

theorem uncountedRequests_append (a b) : uncountedRequests (a ++ b) = uncountedRequests a + uncountedRequests b :=
  List.countP_append ..

/-- Things which do not matter may happen before. -/
theorem StepBook.cons {w : Nat} {t t' : Option AuthTask} {d : List AuthEntry} {ts : List Tally} {e : AuthEntry}
    (h : StepBook w t d t' ts) (he : offBook e = true ∨ ∃ m p, e = .received m p) : StepBook w t (e :: d) t' ts := by
  have z : ∀ p : AuthEntry → Bool, (p e = false) → (e :: d).countP p = d.countP p := by
    intro p hp
    rw [List.countP_cons, hp]; rfl
  have z1 : ∀ m, loginsBy m (e :: d) = loginsBy m d := fun m => z _ (by
    rcases he with he | ⟨m, p, rfl⟩
    · cases e <;> simp_all [offBook]
    · rfl)
  have z2 : loginCount (e :: d) = loginCount d := z _ (by
    rcases he with he | ⟨m, p, rfl⟩
    · cases e <;> simp_all [offBook]
    · rfl)
  have z3 : failures (e :: d) = failures d := z _ (by
    rcases he with he | ⟨m, p, rfl⟩
    · cases e <;> simp_all [offBook]
    · rfl)
  have z4 : answered (e :: d) = answered d := z _ (by
    rcases he with he | ⟨m, p, rfl⟩
    · cases e <;> simp_all [offBook]
    · rfl)
  have z5 : verdicts (e :: d) = verdicts d := z _ (by
    rcases he with he | ⟨m, p, rfl⟩
    · cases e <;> simp_all [offBook]
    · rfl)
  have z6 : wrongPasswords (e :: d) = wrongPasswords d := z _ (by
    rcases he with he | ⟨m, p, rfl⟩
    · cases e <;> simp_all [offBook]
    · rfl)
  have z7 : uncountedRequests d ≤ uncountedRequests (e :: d) := by
    rw [show e :: d = [e] ++ d from rfl, uncountedRequests_append]; exact Nat.le_add_left _ _
  refine ⟨by rw [z1]; exact h.pk, by rw [z1]; exact h.hb, by rw [z2]; exact h.all, by rw [z3]; exact h.fl1, ?_,
    by rw [z4]; exact h.one, by rw [z5, z6]; exact h.pay⟩
  have := h.fl2
  rw [z3]; omega

/-- Only protocol errors are counted in addition. -/
theorem StepBook.more {w : Nat} {t t' : Option AuthTask} {d : List AuthEntry} {ts ts' : List Tally}
    (h : StepBook w t d t' ts) (h' : ∀ x ∈ ts', x = .count .protocolError) : StepBook w t d t' (ts ++ ts') := by
  have z : ∀ c, c ≠ .protocolError → counted c (ts ++ ts') = counted c ts := by
    intro c hc
    have : counted c ts' = 0 := by
      unfold counted
      rw [List.countP_eq_zero]
      intro x hx
      rw [h' x hx]
      simpa using hc.symm
    rw [counted_append, this]; rfl
  have z1 : countedAccepted (ts ++ ts') = countedAccepted ts := by
    simp only [countedAccepted]
    rw [z _ (by decide), z .publickeyAccepted (by decide), z .hostbasedAccepted (by decide)]
  have z2 : countedFailed (ts ++ ts') = countedFailed ts := by
    simp only [countedFailed]
    rw [z .passwordFailed (by decide), z .publickeyFailed (by decide), z .hostbasedFailed (by decide),
      z .unsupportedFailed (by decide), z .unknownFailed (by decide)]
  refine ⟨by rw [z _ (by decide)]; exact h.pk, by rw [z _ (by decide)]; exact h.hb, by rw [z1]; exact h.all, by rw [z2]; exact h.fl1,
    by rw [z2]; exact h.fl2, by rw [z _ (by decide)]; exact h.one, ?_⟩
  have := h.pay
  rw [paid_append]; omega

/-- Part of the processing of a request. -/
theorem BookLog.step {r : AuthReq} {w : Nat} {d : List AuthEntry} {t t' : Option AuthTask} {ts : List Tally}
    (h : BookLog r 0 w d t' ts) (hp : pendFail t = 0) (hr : r.uncounted.toNat ≤ reserve t) (hb : busy t = 1)
    (hg : oneToken * guessing t' ≤ paid ts + oneToken * guessing t) : StepBook w t d t' ts := by
  have z5 : verdicts d = 0 := by
    unfold verdicts
    rw [List.countP_eq_zero]
    intro e he
    have := h.quiet e he
    cases e <;> simp_all
  have z6 : wrongPasswords d = 0 := by
    unfold wrongPasswords
    rw [List.countP_eq_zero]
    intro e he
    have := h.quiet e he
    cases e <;> simp_all
  have h1 := h.fl1
  have h2 := h.fl2
  have h3 := h.one
  refine ⟨h.pk, h.hb, h.all, by omega, by omega, by omega, ?_⟩
  simp only [oneToken] at hg ⊢
  rw [z5, z6]; omega

theorem uncounted_spec {p : Bytes} {r : AuthReq} (h : parseAuthReq p = some r) (hu : r.uncounted = true) :
    UncountedRequest p := by
  obtain ⟨_, h2⟩ := parseAuthReq_inv h
  refine ⟨r.user, r.service, r.method, r.rest, h2, ?_⟩
  unfold AuthReq.uncounted at hu
  simp only [Bool.or_eq_true, Bool.and_eq_true, Bool.not_eq_true', beq_eq_false_iff_ne, beq_iff_eq] at hu
  rcases hu with (hu | hu) | ⟨hu, hp⟩
  · exact .inl hu
  · exact .inr (.inl hu)
  · refine .inr (.inr ⟨hu, ?_⟩)
    split at hp
    · rename_i pw rest heq
      obtain ⟨b, h3, h4⟩ := parsePassword_inv heq
      exact ⟨b, pw, by intro hb; simp [hb] at h4, h3⟩
    · cases hp

theorem uncounted_one {p : Bytes} {r : AuthReq} (h : parseAuthReq p = some r) :
    r.uncounted.toNat ≤ uncountedRequests [.received 50 p] := by
  cases hu : r.uncounted
  · exact Nat.zero_le _
  · have := uncounted_spec h hu
    simp [uncountedRequests, this]

/-- What was counted as accepted without a login. -/
def wastedStep (cfg : AuthCfg) (y : Auth) : AuthEv → Nat
  | .packet _ payload _ =>
    match parseAuthReq payload with
    | some r => wastedAfter cfg y r
    | none => 0
  | .timer =>
    match y.task with
    | some (.tarpit r) => wastedAfter cfg y r
    | _ => 0
  | .translated (some a) =>
    match y.task with
    | some (.translate r p) => wasted r p a
    | _ => 0
  | _ => 0

/-- A request arrives. -/
theorem stepBook_request {cfg : AuthCfg} {y : Auth} {payload : Bytes} {delay : Bool} (ht : y.task = none) :
    ∃ w ≤ wastedStep cfg y (.packet 50 payload delay), ∃ d, (y.userAuthRequest cfg payload delay).log = y.log ++ d ∧
      StepBook w none (.received 50 payload :: d) (y.userAuthRequest cfg payload delay).task
        (y.tallyRequest cfg payload delay) := by
  unfold Auth.userAuthRequest Auth.tallyRequest wastedStep
  cases hp : parseAuthReq payload with
  | none =>
    simp only
    obtain ⟨⟨d, h1, h2⟩, h3, _⟩ := offBook_malformed y false
    exact ⟨0, Nat.zero_le _, d, h1, (stepBook_calm h2 (.inl (by rw [h3, ht])) rfl rfl).cons (.inr ⟨_, _, rfl⟩)⟩
  | some r =>
    simp only
    have hu := uncounted_one hp
    have hx : ∀ d, uncountedRequests (.received 50 payload :: d) = uncountedRequests [.received 50 payload] + uncountedRequests d :=
      fun d => uncountedRequests_append [_] d
    cases delay
    · simp only [cond_false]
      obtain ⟨⟨d, h1, h2⟩, _, _⟩ := books_after (cfg := cfg) (r := r) (a := false) ht
      refine ⟨wastedAfter cfg y r, by simp only [hp]; exact Nat.le_refl _, d, h1, ?_⟩
      have hg := guessing_after (cfg := cfg) ht r false
      have h3 := (h2.step (t := some (.tarpit r)) rfl (Nat.le_refl _) rfl (by omega)).cons (e := .received 50 payload) (.inr ⟨_, _, rfl⟩)
      have hc : ∀ c, c ≠ .received → counted c (.count .received :: y.tallyAfter cfg r) = counted c (y.tallyAfter cfg r) := by
        intro c hc
        rw [counted_count, if_neg hc.symm]; rfl
      have e1 : countedAccepted (.count .received :: y.tallyAfter cfg r) = countedAccepted (y.tallyAfter cfg r) := by
        simp only [countedAccepted]
        rw [hc .passwordAccepted (by decide), hc .publickeyAccepted (by decide), hc .hostbasedAccepted (by decide)]
      have e2 : countedFailed (.count .received :: y.tallyAfter cfg r) = countedFailed (y.tallyAfter cfg r) := by
        simp only [countedFailed]
        rw [hc .passwordFailed (by decide), hc .publickeyFailed (by decide), hc .hostbasedFailed (by decide),
          hc .unsupportedFailed (by decide), hc .unknownFailed (by decide)]
      refine ⟨by rw [hc _ (by decide)]; exact h3.pk, by rw [hc _ (by decide)]; exact h3.hb, by rw [e1]; exact h3.all,
        by rw [e2]; exact h3.fl1, ?_, ?_, by rw [paid_count]; exact h3.pay⟩
      · have h4 := h2.fl2
        have h5 : failures (.received 50 payload :: d) = failures d := by
          rw [show AuthEntry.received 50 payload :: d = [AuthEntry.received 50 payload] ++ d from rfl, failures_append]
          exact Nat.zero_add _
        rw [e2, h5, hx, show pendFail none = 0 from rfl, show reserve none = 0 from rfl]
        omega
      · have h4 := h3.one
        rw [counted_count, if_pos rfl]
        rw [show busy none = 0 from rfl]
        rw [show busy (some (.tarpit r)) = 1 from rfl] at h4
        have h5 := h2.recv
        omega
    · simp only [cond_true]
      refine ⟨0, Nat.zero_le _, [], by simp, rfl, rfl, rfl, Nat.zero_le _, ?_, Nat.le_refl _, Nat.zero_le _⟩
      simp only [reserve]
      rw [show failures [.received 50 payload] = 0 from rfl]
      simp only [pendFail]
      omega

/-- A offBook event. -/
theorem OffBook.book {y z : Auth} (h : OffBook y z) {ts : List Tally} (h1 : countedAccepted ts = 0) (h2 : countedFailed ts = 0)
    (n : Nat) : ∃ w ≤ n, ∃ d, z.log = y.log ++ d ∧ StepBook w y.task d z.task ts := by
  obtain ⟨⟨d, h3, h4⟩, h5, _⟩ := h
  exact ⟨0, Nat.zero_le _, d, h3, stepBook_calm h4 (.inl h5) h1 h2⟩

theorem book_packet {cfg : AuthCfg} {y : Auth} {msg : UInt8} {payload : Bytes} {delay : Bool} :
    ∃ w ≤ wastedStep cfg y (.packet msg payload delay), ∃ d,
      ((y.say (.received msg payload)).packet cfg msg payload delay).log = y.log ++ d ∧
      StepBook w y.task d ((y.say (.received msg payload)).packet cfg msg payload delay).task
        ((y.say (.received msg payload)).tallyPacket cfg msg payload delay) := by
  have hoff : ∀ z ts, OffBook (y.say (.received msg payload)) z → countedAccepted ts = 0 → countedFailed ts = 0 →
      ∃ w ≤ wastedStep cfg y (.packet msg payload delay), ∃ d, z.log = y.log ++ d ∧ StepBook w y.task d z.task ts := by
    intro z ts h h1 h2
    obtain ⟨w, hw, d, h3, h4⟩ := h.book h1 h2 (wastedStep cfg y (.packet msg payload delay))
    exact ⟨w, hw, .received msg payload :: d, by rw [h3]; simp [Auth.say], h4.cons (.inr ⟨_, _, rfl⟩)⟩
  unfold Auth.packet Auth.tallyPacket
  cases hl : (y.say (.received msg payload)).laterHandlers msg payload with
  | some z => exact hoff _ _ (offBook_later hl) rfl rfl
  | none =>
    simp only
    unfold Auth.userAuthPacket
    cases (y.say (.received msg payload)).userAuth
    · exact hoff _ _ (offBook_transport _ _) rfl rfl
    simp only [Bool.not_true, cond_false]
    cases ho : (y.say (.received msg payload)).task.isSome && !allowedWhileOccupied msg
    · simp only [cond_false]
      by_cases h1 : msg = MSG_SERVICE_REQUEST
      · rw [if_pos h1, if_pos h1]
        refine hoff _ _ (offBook_service _ _) ?_ ?_
        · unfold tallyService
          split
          · rfl
          · split <;> rfl
        · unfold tallyService
          split
          · rfl
          · split <;> rfl
      · rw [if_neg h1, if_neg h1]
        by_cases h2 : msg = MSG_USERAUTH_REQUEST
        · rw [if_pos h2, if_pos h2]
          unfold Auth.handleUserauthRequest
          cases (y.say (.received msg payload)).authenticated
          · cases (y.say (.received msg payload)).haveService
            · exact hoff _ _ (.one (e := .disconnected 2)) rfl rfl
            · simp only [Bool.not_true, cond_false]
              have ht : y.task = none := by
                subst h2
                rw [show allowedWhileOccupied MSG_USERAUTH_REQUEST = false by decide] at ho
                change (y.task.isSome && !false) = false at ho
                cases h : y.task with
                | none => rfl
                | some t => rw [h] at ho; cases ho
              obtain ⟨w, hw, d, h3, h4⟩ := stepBook_request (cfg := cfg) (y := y.say (.received msg payload)) (payload := payload)
                (delay := delay) ht
              refine ⟨w, hw, .received msg payload :: d, by rw [h3]; simp [Auth.say], ?_⟩
              rw [ht]
              have h5 : msg = 50 := h2
              rw [h5] at h4 ⊢
              exact h4
          · exact hoff _ _ (.refl _) rfl rfl
        · rw [if_neg h2, if_neg h2]
          exact hoff _ _ (offBook_transport _ _) rfl rfl
    · exact hoff _ _ (.one (e := .disconnected 2)) rfl rfl

theorem verdicts_account (u p : Bytes) (a : Account) (d : List AuthEntry) :
    verdicts (.account u p a :: d) = verdicts d + (!p.isEmpty).toNat := by
  unfold verdicts
  rw [List.countP_cons]
  congr 1
  show (if (!p.isEmpty) = true then 1 else 0) = _
  cases p.isEmpty <;> rfl

theorem wrongPasswords_account (u p : Bytes) (a : Account) (d : List AuthEntry) :
    wrongPasswords (.account u p a :: d) = wrongPasswords d + (!p.isEmpty && !a.ok).toNat := by
  unfold wrongPasswords
  rw [List.countP_cons]
  congr 1
  show (if (!p.isEmpty && !a.ok) = true then 1 else 0) = _
  cases (!p.isEmpty && !a.ok) <;> rfl

theorem book_resume {cfg : AuthCfg} {y : Auth} {t : AuthTask} (ht : y.task = some t)
    (hm : ∀ r k, t = .home r k → r.method = ascii "publickey") (ev : AuthEv) :
    ∃ w ≤ wastedStep cfg y ev, ∃ d, (y.resume cfg t ev).log = y.log ++ d ∧
      StepBook w y.task d (y.resume cfg t ev).task (y.tallyResume cfg t ev) := by
  have hself : ∃ w ≤ wastedStep cfg y ev, ∃ d, y.log = y.log ++ d ∧ StepBook w y.task d y.task [] :=
    (OffBook.refl y).book rfl rfl _
  unfold Auth.resume Auth.tallyResume
  split
  · rename_i r
    obtain ⟨⟨d, h1, h2⟩, _, _⟩ := books_after (cfg := cfg) (y := { y with task := none }) (r := r) (a := true) rfl
    refine ⟨wastedAfter cfg { y with task := none } r, ?_, d, h1, ?_⟩
    · simp only [wastedStep, ht]; exact Nat.le_refl _
    · rw [ht]
      have := guessing_after (cfg := cfg) (y := { y with task := none }) rfl r true
      exact h2.step rfl (Nat.le_refl _) rfl (by omega)
  · rename_i r p a
    cases a with
    | none =>
      refine ⟨0, Nat.zero_le _, [.disconnected 7], rfl, ?_⟩
      rw [ht]
      refine ⟨rfl, rfl, rfl, Nat.le_refl _, ?_, Nat.zero_le _, ?_⟩
      · show 0 + 0 + 0 ≤ _; omega
      · show oneToken * (0 + 0) + 8 * oneToken * 0 ≤ _; simp only [oneToken]; omega
    | some a =>
      obtain ⟨⟨d, h1, h2⟩, _, _⟩ := books_accountKnown (cfg := cfg)
        (y := ({ y with task := none, translation := some { user := r.user, password := p, account := a } } : Auth).say
          (.account r.user p a)) (r := r) (password := p) (acct := a) (a := true) rfl
      refine ⟨wasted r p a, by simp only [wastedStep, ht]; exact Nat.le_refl _, .account r.user p a :: d, ?_, ?_⟩
      · show _ = y.log ++ ([_] ++ d)
        rw [← List.append_assoc]
        exact h1
      · have hg := guessing_accountKnown (cfg := cfg)
          (y := ({ y with task := none, translation := some { user := r.user, password := p, account := a } } : Auth).say
            (.account r.user p a)) rfl r p a true
        have h3 := h2.step (t := some (.translate r p)) rfl (Nat.le_refl _) rfl (by rw [hg]; exact Nat.zero_le _)
        rw [ht]
        have z : ∀ q : AuthEntry → Bool, (q (.account r.user p a) = false) → (.account r.user p a :: d).countP q = d.countP q := by
          intro q hq
          rw [List.countP_cons, hq]; rfl
        have z3 : failures (.account r.user p a :: d) = failures d := z _ rfl
        refine ⟨h3.pk.trans (z _ rfl).symm, h3.hb.trans (z _ rfl).symm, ?_, ?_, ?_, ?_, ?_⟩
        · rw [show loginCount (.account r.user p a :: d) = loginCount d from z _ rfl]; exact h3.all
        · rw [z3]; exact h3.fl1
        · rw [z3, show uncountedRequests (.account r.user p a :: d) = uncountedRequests d from z _ rfl]; exact h3.fl2
        · rw [show answered (.account r.user p a :: d) = answered d from z _ rfl]; exact h3.one
        · rw [verdicts_account, wrongPasswords_account]
          have h4 := h3.pay
          have h5 : guessing (some (.translate r p)) = (!p.isEmpty).toNat := rfl
          have hg' : guessing (Auth.translated cfg { y with task := none } r p (some a)).task = 0 := hg
          have hv : verdicts d = 0 := by
            unfold verdicts
            rw [List.countP_eq_zero]
            intro e he
            have := h2.quiet e he
            cases e <;> simp_all
          have hw : wrongPasswords d = 0 := by
            unfold wrongPasswords
            rw [List.countP_eq_zero]
            intro e he
            have := h2.quiet e he
            cases e <;> simp_all
          rw [hv, hw, hg', h5]
          cases ho : a.ok
          · have := paid_account (cfg := cfg) (y := { y with translation := some { user := r.user, password := p, account := a } })
              (r := r) (p := p) ho
            change 8 * oneToken ≤ paid (y.tallyTranslated cfg r p (some a)) at this
            cases p.isEmpty
            · show oneToken * (0 + 1 + 0) + 8 * oneToken * (0 + 1) ≤ _ + oneToken * 1
              simp only [oneToken] at this ⊢
              omega
            · exact Nat.zero_le _
          · cases p.isEmpty
            · exact Nat.le_add_left _ _
            · exact Nat.zero_le _
  · rename_i r k text
    have hm := hm r k rfl
    have h : ∃ d, (Auth.homeRead cfg { y with task := none } r k text).log = (y.log ++ [.homeKeys text]) ++ d ∧
        BookLog r 0 0 d (Auth.homeRead cfg { y with task := none } r k text).task (tallyHome cfg r k text) ∧
        guessing (Auth.homeRead cfg { y with task := none } r k text).task = 0 := by
      unfold Auth.homeRead tallyHome
      simp only
      cases text.bind fun t => fileContains cfg.decode t k.blob with
      | some o =>
        obtain ⟨⟨d, h1, h2⟩, _, _⟩ := books_keyAccepted (cfg := cfg)
          (y := { ({ y with task := none } : Auth).say (.homeKeys text) with opts := o }) (r := r) (k := k) (a := true) rfl hm
        exact ⟨d, h1, h2, guessing_keyAccepted
          (y := { ({ y with task := none } : Auth).say (.homeKeys text) with opts := o }) rfl r k true⟩
      | none =>
        obtain ⟨⟨d, h1, h2⟩, _, _⟩ := books_failLater (y := ({ y with task := none } : Auth).say (.homeKeys text)) (r := r)
          (m := authMethods cfg) (ts := [.count .publickeyFailed]) rfl (Nat.le_refl _) (Nat.le_add_right _ _) rfl
        exact ⟨d, h1, h2, rfl⟩
    obtain ⟨d, h1, h2, h3⟩ := h
    refine ⟨0, Nat.zero_le _, .homeKeys text :: d, by rw [h1]; simp, ?_⟩
    rw [ht]
    exact (h2.step rfl (Nat.le_refl _) rfl (by rw [h3]; exact Nat.zero_le _)).cons (.inl rfl)
  · rename_i m
    refine ⟨0, Nat.zero_le _, [.failure m], rfl, ?_⟩
    rw [ht]
    exact ⟨rfl, rfl, rfl, Nat.le_refl _, Nat.le_add_right _ _, Nat.le_refl _, Nat.le_refl _⟩
  · refine ⟨0, Nat.zero_le _, [], by simp [Auth.complete], ?_⟩
    rw [ht]
    exact stepBook_calm (by simp) (.inr ⟨rfl, rfl⟩) rfl rfl
  · exact (OffBook.one (e := .closed)).book rfl rfl _
  · split <;> first | exact hself | (exfalso; simp_all)

theorem offBook_bif {y z1 z2 : Auth} {b : Bool} (h1 : OffBook y z1) (h2 : OffBook y z2) : OffBook y (bif b then z1 else z2) := by
  cases b
  · exact h2
  · exact h1

theorem home_method {cfg : AuthCfg} {y : Auth} (h : AuthInv cfg y) (hs : y.stop = false) {t : AuthTask} (ht : y.task = some t)
    (r : AuthReq) (k : KeyReq) (e : t = .home r k) : r.method = ascii "publickey" := by
  rcases h with ⟨_, h1 | ⟨_, h1⟩⟩ | h1
  · rw [hs] at h1; cases h1
  · rw [ht, e] at h1
    have h2 : HomeOk cfg y r k := h1
    exact h2.method
  · rcases h1.task with h2 | h2 <;> rw [ht, e] at h2 <;> simp at h2

/-- Events that the books never see. -/
def Unseen : AuthEv → Prop
  | .encrypted | .targetSuccess | .targetPacket _ _ | .targetDisconnecting | .targetGone | .closed => True
  | _ => False

theorem tallyStep_unseen {cfg : AuthCfg} {y : Auth} {ev : AuthEv} (h : Unseen ev) : y.tallyStep cfg ev = [] := by
  unfold Auth.tallyStep
  cases y.stop
  · cases ev <;> first | exact h.elim | skip
    all_goals
      simp only [cond_false]
      split
      · rfl
      · rename_i t _
        cases t <;> rfl
  · rfl

theorem book_tallyStep {cfg : AuthCfg} {y : Auth} (h : AuthInv cfg y) (ev : AuthEv) :
    ∃ w ≤ wastedStep cfg y ev, ∃ d, (y.step cfg ev).log = y.log ++ d ∧
      StepBook w y.task d (y.step cfg ev).task (y.tallyStep cfg ev) := by
  cases hs : y.stop
  · have hself : ∀ n : Nat, ∃ w ≤ n, ∃ d, y.log = y.log ++ d ∧ StepBook w y.task d y.task [] :=
      fun n => (OffBook.refl y).book rfl rfl n
    have hres : ∀ ev : AuthEv, ∃ w ≤ wastedStep cfg y ev, ∃ d,
        (match y.task with | none => y | some t => y.resume cfg t ev).log = y.log ++ d ∧
        StepBook w y.task d (match y.task with | none => y | some t => y.resume cfg t ev).task
          (match y.task with | none => [] | some t => y.tallyResume cfg t ev) := by
      intro ev
      cases ht : y.task with
      | none =>
        have := hself (wastedStep cfg y ev)
        simp only [ht] at this ⊢
        exact this
      | some t =>
        have := book_resume ht (home_method h hs ht) (cfg := cfg) ev
        simp only [ht] at this ⊢
        exact this
    have hst : ∀ ev, Unseen ev → ∀ z, y.step cfg ev = z → (∃ w ≤ wastedStep cfg y ev, ∃ d, z.log = y.log ++ d ∧
        StepBook w y.task d z.task []) → ∃ w ≤ wastedStep cfg y ev, ∃ d, (y.step cfg ev).log = y.log ++ d ∧
        StepBook w y.task d (y.step cfg ev).task (y.tallyStep cfg ev) := by
      intro ev hu z hz h
      rw [tallyStep_unseen hu, hz]
      exact h
    have hc : ∀ ev, Unseen ev → OffBook y (y.step cfg ev) → ∃ w ≤ wastedStep cfg y ev, ∃ d, (y.step cfg ev).log = y.log ++ d ∧
        StepBook w y.task d (y.step cfg ev).task (y.tallyStep cfg ev) :=
      fun ev hu hc => hst ev hu _ rfl (hc.book rfl rfl _)
    have hdisc : ∀ n, OffBook y (y.disconnect n) := fun n => OffBook.one (e := .disconnected n)
    cases ev with
    | encrypted =>
      refine hc _ trivial ?_
      unfold Auth.step
      rw [hs]
      simp only [cond_false]
      exact offBook_bif (.refl y) (OffBook.one (e := .encrypted))
    | packet m p d =>
      unfold Auth.step Auth.tallyStep
      rw [hs]
      exact book_packet
    | timer => unfold Auth.step Auth.tallyStep; rw [hs]; exact hres _
    | translated a => unfold Auth.step Auth.tallyStep; rw [hs]; exact hres _
    | home t => unfold Auth.step Auth.tallyStep; rw [hs]; exact hres _
    | connected ok => unfold Auth.step Auth.tallyStep; rw [hs]; exact hres _
    | targetSuccess =>
      refine hc _ trivial ?_
      unfold Auth.step
      rw [hs]
      simp only [cond_false]
      refine offBook_bif ?_ (.refl y)
      unfold Auth.targetReady
      split
      · exact OffBook.one (e := .disconnected 10)
      · rename_i s _
        exact ⟨⟨[.requestToTarget (s.buf.drop 5), .success], rfl, by simp [offBook]⟩, rfl, rfl⟩
    | targetPacket m p =>
      refine hc _ trivial ?_
      unfold Auth.step
      rw [hs]
      simp only [cond_false]
      refine offBook_bif (offBook_bif ?_ (OffBook.one (e := .targetReceived m p))) (.refl y)
      exact ⟨⟨[.targetReceived m p, .toClient m p], rfl, by simp [offBook]⟩, rfl, rfl⟩
    | targetDisconnecting =>
      refine hc _ trivial ?_
      unfold Auth.step
      rw [hs]
      simp only [cond_false]
      exact ⟨⟨[], by simp, by simp⟩, rfl, rfl⟩
    | targetGone =>
      refine hc _ trivial ?_
      unfold Auth.step
      rw [hs]
      simp only [cond_false]
      exact offBook_bif (hdisc _) (.refl y)
    | authTimeout =>
      unfold Auth.step Auth.tallyStep
      rw [hs]
      show ∃ w ≤ _, ∃ d, (bif y.authenticated then y else y.disconnect 10).log = y.log ++ d ∧
        StepBook w y.task d (bif y.authenticated then y else y.disconnect 10).task
          (bif y.authenticated then [] else [.count .timeout])
      refine (offBook_bif (.refl y) (hdisc _)).book ?_ ?_ _ <;> cases y.authenticated <;> rfl
    | closed =>
      refine hc _ trivial ?_
      unfold Auth.step
      rw [hs]
      simp only [cond_false]
      exact OffBook.one (e := .closed)
  · unfold Auth.step Auth.tallyStep
    rw [hs]
    exact (OffBook.refl y).book rfl rfl _

theorem tallyDisconnect_only (d : List AuthEntry) : ∀ x ∈ d.flatMap tallyDisconnect, x = .count .protocolError := by
  intro x hx
  obtain ⟨e, _, h⟩ := List.mem_flatMap.mp hx
  cases e <;> simp [tallyDisconnect, cond_eq_ite] at h
  exact h.2

/-- One event. -/
theorem book_step {cfg : AuthCfg} {y : Auth} (h : AuthInv cfg y) (ev : AuthEv) :
    ∃ w ≤ wastedStep cfg y ev, ∃ d, (y.step cfg ev).log = y.log ++ d ∧
      StepBook w y.task d (y.step cfg ev).task (y.tally cfg ev) := by
  obtain ⟨w, hw, d, h1, h2⟩ := book_tallyStep h ev
  exact ⟨w, hw, d, h1, h2.more (tallyDisconnect_only _)⟩

end Lukko
