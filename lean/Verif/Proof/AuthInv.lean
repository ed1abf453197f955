import Verif.Proof.Auth
/-
  The invariant of user authentication.
-/
namespace Lukko
open Model Spec

/-- The permissions given are at most those of the account, and exactly those if this was
the first attempt. -/
def PermsOk (log : List AuthEntry) (l : Login) (acct : Option Account) (pw : Bytes) : Prop :=
  (l.exec = true → mayExec acct pw = true) ∧ (l.sftp = true → maySftp acct = true) ∧
  (isSftpOnly acct pw = true → l.sftpOnly = true) ∧
  (attempts log ≤ 1 → l.exec = mayExec acct pw ∧ l.sftp = maySftp acct ∧ l.sftpOnly = isSftpOnly acct pw)

/-- Executing programs is allowed. -/
def ExecOk (a : List AuthEntry) : Prop := ∃ l, .loggedIn l ∈ a ∧ l.exec = true

/-- Forwarding TCP connections is allowed. -/
def ForwardOk (a : List AuthEntry) : Prop :=
  ExecOk a ∧ (∃ r, inEffect a = some r ∧ r.noForwarding = false) ∧
  ∀ u p acct, lastAccount a = some (u, p, acct) → acct.shell = true → acct.ownNetwork = false

theorem optionsPacket_carries {o : KeyOptions} {s : Ser} (h : optionsPacket o = .ok s) :
    CarriesRestrictions (s.buf.drop 5) o.restrictions := by
  simp only [optionsPacket, bind, Except.bind] at h
  have hb := (C05_global_request AUTHORIZED_KEY_OPTIONS_REQUEST false [] (by decide)).1
  unfold Builds at hb
  rw [hb] at h
  split at h
  · simp at h
  · rename_i s1 h1
    split at h1
    · simp only [Except.ok.injEq] at h1
      have h2 := serializeKeyOptions_ok h
      rw [h2, ← h1]
      obtain ⟨os, h3, h4⟩ := optionsBody_list o
      refine ⟨os, ?_, ?_⟩
      · rw [h3]; rfl
      · have := setAll_spec os {}
        rw [h4] at this
        exact this.symm
    · simp at h1

/-- What has happened before an entry. -/
def Before (cfg : AuthCfg) (a : List AuthEntry) : AuthEntry → Prop
  | .loggedIn l => Justified cfg.world a l ∧
      (∀ pw acct, KnownAccount cfg.world a l.user pw acct → PermsOk a l acct pw) ∧
      .serviceAccepted (ascii "ssh-userauth") ∈ a ∧ .encrypted ∈ a ∧ (∀ l', .loggedIn l' ∉ a) ∧
      (attempts a ≤ 1 → l.method ≠ ascii "publickey" → l.method ≠ ascii "hostbased" → l.restrictions = {})
  | .success => ∃ l, .loggedIn l ∈ a
  | .requestToTarget p => (∃ l, .loggedIn l ∈ a) ∧ ∃ r, inEffect a = some r ∧ CarriesRestrictions p r
  | .connectTcp .. | .bindTcp .. => .success ∈ a ∧ ForwardOk a
  | .connectLocal _ => .success ∈ a ∧ ExecOk a
  | .openSession => .success ∈ a ∧ .noMoreSessions ∉ a
  | .restricted r => .success ∈ a ∧ ∃ r0, inEffect a = some r0 ∧ r0.le r
  | .toTarget .. => .success ∈ a ∧ ∃ r p, .requestToTarget p ∈ a ∧ CarriesRestrictions p r ∧ inEffect a = some r
  | e => e.isEffect = true → .success ∈ a

/-- Before authentication. -/
structure Pre (cfg : AuthCfg) (y : Auth) : Prop where
  auth : y.authenticated = false
  host : y.hostbased = false
  chan : y.channels = false
  out : y.outgoing = false
  prox : y.proxied = false
  svc : y.haveService = true → .serviceAccepted (ascii "ssh-userauth") ∈ y.log
  ua : y.userAuth = true → .encrypted ∈ y.log
  acc : lastAccount y.log = y.translation.map fun t => (t.user, t.password, t.account)
  tr : cfg.translation = false → y.translation = none
  prev : AllPrev (Before cfg) y.log
  noLogin : ∀ l, .loggedIn l ∉ y.log
  fresh0 : attempts y.log = 0 → y.opts = {} ∧ y.allowExec = true ∧ y.allowSftp = true ∧ y.sftpOnly = false

/-- Only logins without password are remembered. -/
def NoPw (y : Auth) : Prop := ∀ t, y.translation = some t → t.account.ok = true → t.password = []

/-- The request being processed is the last one received. -/
structure ReqOk (y : Auth) (r : AuthReq) : Prop where
  last : lastRequest y.log = some r.payload
  eq : r.payload = str r.user ++ (str r.service ++ (str r.method ++ r.rest))
  svc : y.haveService = true
  ua : y.userAuth = true

def FreshPerms (y : Auth) : Prop :=
  attempts y.log ≤ 1 → y.opts = {} ∧ y.allowExec = true ∧ y.allowSftp = true ∧ y.sftpOnly = false

/-- The user name and service are valid. -/
structure ReqOk2 (y : Auth) (r : AuthReq) : Prop extends ReqOk y r where
  service : r.service = ascii "ssh-connection"
  valid : ValidUser r.user

/-- The password is that of the request. -/
def PwOk (cfg : AuthCfg) (r : AuthReq) (pw : Bytes) : Prop :=
  (pw ≠ [] ∧ cfg.translation = true ∧ r.method = ascii "password" ∧ r.rest = 0 :: str pw) ∨
  (pw = [] ∧ (cfg.translation = true → r.method ≠ ascii "password"))

/-- The account in use. -/
def Known (cfg : AuthCfg) (y : Auth) (user pw : Bytes) : Prop :=
  (cfg.translation = true ∧ ∃ t, y.translation = some t ∧ t.user = user ∧ t.password = pw ∧ t.account.ok = true) ∨
  (cfg.translation = false ∧ y.translation = none ∧ cfg.getpwnam user = true)

/-- The permissions have been applied. -/
def PermsSet (y : Auth) (pw : Bytes) : Prop :=
  PermsOk y.log (y.login [] []) (y.translation.map (·.account)) pw

structure HomeOk (cfg : AuthCfg) (y : Auth) (r : AuthReq) (k : KeyReq) : Prop extends ReqOk2 y r where
  known : Known cfg y r.user []
  perms : PermsSet y []
  method : r.method = ascii "publickey"
  rest : ∃ b, r.rest = b :: (str k.alg ++ (str k.blob ++ k.rest)) ∧ k.withSig = (b != 0)
  notFound : y.findKey cfg k.blob = none
  useHome : y.useHome = true

/-- What is known while the coroutine is waiting. -/
def TaskOk (cfg : AuthCfg) (y : Auth) : Option AuthTask → Prop
  | none => True
  | some (.tarpit r) => ReqOk y r ∧ FreshPerms y
  | some (.translate r pw) => ReqOk2 y r ∧ FreshPerms y ∧ cfg.translation = true ∧ PwOk cfg r pw
  | some (.home r k) => HomeOk cfg y r k
  | some (.failSleep _) => y.userAuth = true
  | some .connect => False

/-- After authentication. -/
structure AuthPost (cfg : AuthCfg) (y : Auth) : Prop where
  auth : y.authenticated = true
  login : ∃ l, .loggedIn l ∈ y.log
  perms : ∃ l, .loggedIn l ∈ y.log ∧ y.allowExec = l.exec ∧ y.allowSftp = l.sftp ∧ y.sftpOnly = l.sftpOnly ∧
    y.username = l.user
  eff : inEffect y.log = some y.opts.restrictions
  acc : lastAccount y.log = y.translation.map fun t => (t.user, t.password, t.account)
  nms : .noMoreSessions ∈ y.log → y.noMoreSessions = true ∧ y.channels = true
  chan : y.channels = true → .success ∈ y.log
  chan1 : y.channels = true → y.outgoing = false ∧ y.proxied = false ∧ y.task = none
  prox : y.proxied = true → .success ∈ y.log ∧
    ∃ p, .requestToTarget p ∈ y.log ∧ CarriesRestrictions p y.opts.restrictions
  prev : AllPrev (Before cfg) y.log
  task : y.task = none ∨ y.task = some .connect
  tdone : y.proxied = true → y.targetDone = true
  outTask : y.outgoing = true → y.task = none

def AuthInv (cfg : AuthCfg) (y : Auth) : Prop :=
  (Pre cfg y ∧ (y.stop = true ∨ NoPw y ∧ TaskOk cfg y y.task)) ∨ AuthPost cfg y

/-! ### Steps which do little -/

/-- Entries which have no meaning for the invariant. -/
def plain : AuthEntry → Bool
  | .failure _ | .keyOk .. | .unimplemented | .disconnected _ | .closed | .homeKeys _ => true
  | _ => false

theorem before_plain {cfg a e} (h : plain e = true) : Before cfg a e := by
  cases e <;> simp_all [plain, Before, AuthEntry.isEffect]

theorem pre_plain {cfg : AuthCfg} {y : Auth} {e : AuthEntry} (h : Pre cfg y) (he : plain e = true) (st : Bool)
    (tk : Option AuthTask) (ua : Bool) (hua : ua = true → y.userAuth = true) :
    Pre cfg { y with stop := st, task := tk, userAuth := ua, log := y.log ++ [e] } where
  auth := h.auth
  host := h.host
  chan := h.chan
  out := h.out
  prox := h.prox
  svc hs := by simp [h.svc hs]
  ua hs := by simp [h.ua (hua hs)]
  acc := by
    show lastAccount (y.log ++ [e]) = _
    rw [lastAccount_snoc]
    cases e <;> simp_all [plain, h.acc]
  tr := h.tr
  prev := allPrev_snoc h.prev (before_plain he)
  noLogin l := by
    have := h.noLogin l
    cases e <;> simp_all [plain]
  fresh0 := by
    show attempts (y.log ++ [e]) = 0 → _
    rw [attempts_snoc]
    intro h0
    exact h.fresh0 (by cases e <;> simp_all [plain])

theorem pre_task {cfg : AuthCfg} {y : Auth} (h : Pre cfg y) (tk : Option AuthTask) :
    Pre cfg { y with task := tk } :=
  ⟨h.auth, h.host, h.chan, h.out, h.prox, h.svc, h.ua, h.acc, h.tr, h.prev, h.noLogin, h.fresh0⟩

theorem inv_disconnect {cfg : AuthCfg} {y : Auth} (h : Pre cfg y) (n : Nat) : AuthInv cfg (y.disconnect n) :=
  .inl ⟨pre_plain h (e := .disconnected n) rfl true y.task y.userAuth id, .inl rfl⟩

theorem inv_close {cfg : AuthCfg} {y : Auth} (h : Pre cfg y) : AuthInv cfg y.close :=
  .inl ⟨pre_plain h (e := .closed) rfl true y.task y.userAuth id, .inl rfl⟩

theorem inv_malformed {cfg : AuthCfg} {y : Auth} (h : Pre cfg y) (async : Bool) : AuthInv cfg (y.malformed async) := by
  cases async
  · exact inv_disconnect h 2
  · exact inv_close h

theorem inv_say_complete {cfg : AuthCfg} {y : Auth} (h : Pre cfg y) (hn : NoPw y) {e : AuthEntry}
    (he : plain e = true) (async : Bool) : AuthInv cfg ((y.say e).complete cfg async) :=
  .inl ⟨pre_plain h he y.stop none _ (by simp only [Bool.and_eq_true]; exact fun h => h.1), .inr ⟨hn, trivial⟩⟩

theorem inv_fail {cfg : AuthCfg} {y : Auth} (h : Pre cfg y) (hn : NoPw y) (m : Bytes) (async : Bool) :
    AuthInv cfg (y.fail cfg m async) := inv_say_complete h hn (e := .failure m) rfl async

theorem inv_failLater {cfg : AuthCfg} {y : Auth} (h : Pre cfg y) (hn : NoPw y) (hu : y.userAuth = true)
    (m : Bytes) : AuthInv cfg (y.failLater m) := .inl ⟨pre_task h _, .inr ⟨hn, hu⟩⟩

/-- The permissions don't depend on the name or method. -/
theorem permsOk_login {log : List AuthEntry} {y : Auth} {u m : Bytes} {acct : Option Account} {pw : Bytes} :
    PermsOk log (y.login u m) acct pw ↔ PermsOk log (y.login [] []) acct pw := Iff.rfl

theorem known_spec {cfg : AuthCfg} {y : Auth} {user pw : Bytes} (h : Pre cfg y) (hk : Known cfg y user pw) :
    KnownAccount cfg.world y.log user pw (y.translation.map (·.account)) := by
  rcases hk with ⟨h1, t, h2, h3, h4, h5⟩ | ⟨h1, h2, h3⟩
  · refine .inl ⟨h1, t.account, by simp [h2], ?_, h5⟩
    rw [h.acc, h2]
    simp [h3, h4]
  · exact .inr ⟨h1, by simp [h2], h3⟩

theorem perms_any {cfg : AuthCfg} {log : List AuthEntry} {l : Login} {user pw : Bytes} {acct : Option Account}
    (hk : KnownAccount cfg.world log user pw acct) (hp : PermsOk log l acct pw) (pw' : Bytes)
    (acct' : Option Account) (hk' : KnownAccount cfg.world log user pw' acct') : PermsOk log l acct' pw' := by
  rcases hk with ⟨h1, a, rfl, h2, _⟩ | ⟨h1, rfl, _⟩
  · rcases hk' with ⟨_, a', rfl, h2', _⟩ | ⟨h1', _⟩
    · rw [h2] at h2'
      simp only [Option.some.injEq, Prod.mk.injEq, true_and] at h2'
      obtain ⟨rfl, rfl⟩ := h2'
      exact hp
    · rw [h1] at h1'; simp at h1'
  · rcases hk' with ⟨h1', _⟩ | ⟨_, rfl, _⟩
    · rw [h1] at h1'; simp at h1'
    · exact hp

theorem no_noMoreSessions {cfg : AuthCfg} {y : Auth} (h : Pre cfg y) : .noMoreSessions ∉ y.log := by
  intro hm
  obtain ⟨a, b, hab⟩ := List.append_of_mem hm
  have h1 := h.prev a _ b hab rfl
  obtain ⟨a', b', hab'⟩ := List.append_of_mem h1
  obtain ⟨l, hl⟩ := h.prev a' .success (b' ++ .noMoreSessions :: b) (by rw [hab, hab']; simp)
  apply h.noLogin l
  rw [hab, hab']
  simp [hl]

/-- All conditions for a login are fulfilled. -/
theorem inv_accept {cfg : AuthCfg} {y : Auth} (h : Pre cfg y) (b : Bool) {r : AuthReq} {pw : Bytes} {async : Bool}
    (ht : y.task = none)
    (hr : ReqOk2 y r) (hk : Known cfg y r.user pw) (hp : PermsSet y pw)
    (hproof : (pw ≠ [] ∧ cfg.translation = true ∧ PasswordProof y.log pw (y.login r.user r.method)) ∨
     (pw = [] ∧ (PublicKeyProof cfg.world y.log (y.translation.map (·.account)) (y.login r.user r.method) ∨
       HostProof cfg.world y.log (y.login r.user r.method) ∨
       NoPasswordNeeded y.log (y.translation.map (·.account)) (y.login r.user r.method))))
    (hf : attempts y.log ≤ 1 → r.method ≠ ascii "publickey" → r.method ≠ ascii "hostbased" →
      y.opts.restrictions = {}) :
    AuthInv cfg ({ y with hostbased := b }.accept cfg r async) := by
  have hb : Before cfg y.log (.loggedIn (y.login r.user r.method)) := by
    refine ⟨⟨hr.valid, pw, _, known_spec h hk, hproof⟩, ?_, h.svc hr.svc, h.ua hr.ua, h.noLogin, hf⟩
    exact perms_any (known_spec h hk) hp
  have hnms := no_noMoreSessions h
  have hprev := allPrev_snoc h.prev hb
  have hprev2 := allPrev_snoc hprev (e := .success) ⟨_, List.mem_append_right _ (List.mem_singleton_self _)⟩
  have hm : (AuthEntry.loggedIn (y.login r.user r.method)) ∈ y.log ++ [.loggedIn (y.login r.user r.method)] := by simp
  unfold Auth.accept
  simp only
  split
  · refine .inr ⟨rfl, ⟨_, List.mem_append_left _ hm⟩, ⟨_, List.mem_append_left _ hm, rfl, rfl, rfl, rfl⟩, ?_, ?_, ?_,
      ?_, ?_, ?_, allPrev_snoc hprev (before_plain rfl), .inl ht,
      fun hc => absurd h.prox (by simpa [Auth.close] using hc),
      fun hc => absurd h.out (by simpa [Auth.close] using hc)⟩
    · simp only [Auth.close, Auth.say, inEffect_snoc, Auth.login]
    · simp only [Auth.close, Auth.say, lastAccount_snoc, h.acc]
    · intro hx; simp [Auth.close, hnms] at hx
    · intro hc; exact absurd h.chan (by simpa [Auth.close] using hc)
    · intro hc; exact absurd h.chan (by simpa [Auth.close] using hc)
    · intro hc; exact absurd h.prox (by simpa [Auth.close] using hc)
  · refine .inr ⟨rfl, ⟨_, hm⟩, ⟨_, hm, rfl, rfl, rfl, rfl⟩, ?_, ?_, ?_, ?_, ?_, ?_, hprev, .inr rfl,
      fun hc => absurd h.prox (by simpa using hc), fun hc => absurd h.out (by simpa using hc)⟩
    · simp [Auth.login]
    · simp [h.acc]
    · intro hx; simp [hnms] at hx
    · intro hc; exact absurd h.chan (by simpa using hc)
    · intro hc; exact absurd h.chan (by simpa using hc)
    · intro hc; exact absurd h.prox (by simpa using hc)
  · refine .inr ⟨rfl, ⟨_, List.mem_append_left _ hm⟩, ⟨_, List.mem_append_left _ hm, rfl, rfl, rfl, rfl⟩, ?_, ?_, ?_,
      fun _ => List.mem_append_right _ (List.mem_singleton_self _), fun _ => ⟨h.out, h.prox, rfl⟩, ?_, hprev2, .inl rfl,
      fun hc => absurd h.prox (by simpa [Auth.complete] using hc), fun _ => rfl⟩
    · simp only [Auth.complete, Auth.say, inEffect_snoc, Auth.login]
    · simp only [Auth.complete, Auth.say, lastAccount_snoc, h.acc]
    · intro hx; simp [Auth.complete, hnms] at hx
    · intro hc; exact absurd h.prox (by simpa [Auth.complete] using hc)

/-! ### Public keys -/

theorem request_eq {r : AuthReq} (h1 : r.payload = str r.user ++ (str r.service ++ (str r.method ++ r.rest)))
    (h2 : r.service = ascii "ssh-connection") : r.payload = authRequest r.user r.method r.rest := by
  rw [h1, h2]; rfl

theorem inv_keyAccepted {cfg : AuthCfg} {y : Auth} (h : Pre cfg y) (hn : NoPw y) {r : AuthReq} {k : KeyReq}
    {async : Bool} (ht : y.task = none) (hr : ReqOk2 y r) (hk : Known cfg y r.user []) (hp : PermsSet y [])
    (hm : r.method = ascii "publickey")
    (hrest : ∃ b, r.rest = b :: (str k.alg ++ (str k.blob ++ k.rest)) ∧ k.withSig = (b != 0))
    (hg : KeyGrants cfg.world ((y.translation.map (·.account)).bind (·.keys))
      (if ((y.translation.map (·.account)).map (·.noHomeKeys)).getD false then none else homeText y.log) k.blob
      y.opts.restrictions) :
    AuthInv cfg (y.keyAccepted cfg r k async) := by
  unfold Auth.keyAccepted
  cases hpk : cfg.parseKey k.blob with
  | false => exact inv_fail h hn _ _
  | true =>
    cases hws : k.withSig with
    | false =>
      cases hre : k.rest.isEmpty with
      | false => exact inv_malformed h _
      | true => exact inv_say_complete h hn rfl _
    | true =>
      simp only [Bool.not_true, cond_false]
      split
      · exact inv_malformed h _
      · rename_i sig s' hsig
        have hsig := parseSignature_inv hsig
        obtain ⟨b, hb1, hb2⟩ := hrest
        have hb0 : b ≠ 0 := by
          rw [hws] at hb2
          intro h0
          simp [h0] at hb2
        have hreq := request_eq hr.eq hr.service
        have hcons : consumed r.payload k.rest = authRequest r.user r.method (b :: (str k.alg ++ str k.blob)) := by
          have : r.payload = authRequest r.user r.method (b :: (str k.alg ++ str k.blob)) ++ k.rest := by
            rw [hreq, hb1]; simp [authRequest]
          rw [this, consumed_append]
        unfold Auth.checkKeySignature
        split
        · exact inv_fail h hn _ _
        · rename_i m hsd
          have hsd := signedData_ok hsd
          split
          · exact inv_fail h hn _ _
          · exact inv_failLater h hn hr.ua _
          · rename_i hv
            have := inv_accept (async := async) h y.hostbased ht hr hk hp
              (.inr ⟨rfl, .inl ⟨hm, b, k.alg, k.blob, sig, hb0, ?_, hg, hpk, ?_⟩⟩)
              (fun _ h1 => absurd hm h1)
            · exact this
            · show lastRequest y.log = some (authRequest r.user r.method _)
              rw [hr.last, hreq, hb1, hsig]
            · show cfg.verify _ (signedBytes cfg.sessionId (authRequest r.user r.method _)) _ = _
              rw [← hcons, ← hsd]
              exact hv

theorem pre_opts {cfg : AuthCfg} {y : Auth} (h : Pre cfg y) (o : KeyOptions) (ha : attempts y.log ≠ 0) :
    Pre cfg { y with opts := o } :=
  ⟨h.auth, h.host, h.chan, h.out, h.prox, h.svc, h.ua, h.acc, h.tr, h.prev, h.noLogin, fun h0 => absurd h0 ha⟩

theorem inv_publickey {cfg : AuthCfg} {y : Auth} (h : Pre cfg y) (hn : NoPw y) {r : AuthReq}
    {async : Bool} (ht : y.task = none) (hr : ReqOk2 y r) (hk : Known cfg y r.user []) (hp : PermsSet y [])
    (hm : r.method = ascii "publickey") (ha : attempts y.log ≠ 0) :
    AuthInv cfg (y.publickey cfg r async) := by
  unfold Auth.publickey
  split
  · exact inv_malformed h _
  · rename_i k _ hkr
    have hkr := parseKeyReq_inv hkr
    split
    · rename_i o ho
      exact inv_keyAccepted (pre_opts h o ha) hn ht ⟨⟨hr.last, hr.eq, hr.svc, hr.ua⟩, hr.service, hr.valid⟩ hk hp hm
        hkr (findKey_some ho _)
    · rename_i hnone
      cases hu : y.useHome with
      | false => exact inv_failLater h hn hr.ua _
      | true =>
        refine .inl ⟨pre_task h _, .inr ⟨hn, ?_⟩⟩
        exact ⟨⟨⟨hr.last, hr.eq, hr.svc, hr.ua⟩, hr.service, hr.valid⟩, hk, hp, hm, hkr, hnone, hu⟩

theorem inv_hostBased {cfg : AuthCfg} {y : Auth} (h : Pre cfg y) (hn : NoPw y) {r : AuthReq}
    {async : Bool} (ht : y.task = none) (hr : ReqOk2 y r) (hk : Known cfg y r.user []) (hp : PermsSet y [])
    (hm : r.method = ascii "hostbased") (ha : attempts y.log ≠ 0) :
    AuthInv cfg (y.hostBased cfg r async) := by
  unfold Auth.hostBased
  split
  · exact inv_malformed h _
  · rename_i k _ hkr
    obtain ⟨hk1, hk2⟩ := parseHostReq_inv hkr
    split
    · exact inv_failLater h hn hr.ua _
    · rename_i o ho
      have h' := pre_opts h o ha
      unfold Auth.hostAccepted
      cases hpk : cfg.parseKey k.blob with
      | false => exact inv_fail h' hn _ _
      | true =>
        simp only [Bool.not_true, cond_false]
        have hreq := request_eq hr.eq hr.service
        have hcons : consumed r.payload k.rest = authRequest r.user r.method
            (str k.alg ++ (str k.blob ++ (str k.host ++ str k.user))) := by
          have : r.payload = authRequest r.user r.method
              (str k.alg ++ (str k.blob ++ (str k.host ++ str k.user))) ++ k.rest := by
            rw [hreq, hk1]; simp [authRequest]
          rw [this, consumed_append]
        split
        · exact inv_fail h' hn _ _
        · rename_i m hsd
          have hsd := signedData_ok hsd
          split
          · rename_i hv
            have := inv_accept (async := async) h' true ht ⟨⟨hr.last, hr.eq, hr.svc, hr.ua⟩, hr.service, hr.valid⟩
              hk hp (.inr ⟨rfl, .inr (.inl ⟨hm, k.alg, k.blob, k.host, k.user, k.sig, ?_, ?_, hpk, ?_⟩)⟩)
              (fun _ _ h2 => absurd hm h2)
            · exact this
            · show lastRequest y.log = some (authRequest r.user r.method _)
              rw [hr.last, hreq, hk1, hk2]
            · show (cfg.hostKeys.find k.blob).map _ = _
              rw [ho]; rfl
            · show cfg.verify _ (signedBytes cfg.sessionId (authRequest r.user r.method _)) _ = _
              rw [← hcons, ← hsd]
              exact hv
          · exact inv_fail h' hn _ _

/-! ### Other methods -/

theorem pwOk_method {cfg : AuthCfg} {r : AuthReq} {pw : Bytes} (h : PwOk cfg r pw)
    (hm : r.method ≠ ascii "password") : pw = [] := by
  rcases h with ⟨_, _, h, _⟩ | ⟨h, _⟩
  · exact absurd h hm
  · exact h

theorem inv_byMethod {cfg : AuthCfg} {y : Auth} (h : Pre cfg y) {r : AuthReq} {pw : Bytes} {pa : Bool}
    {async : Bool} (ht : y.task = none) (hr : ReqOk2 y r) (hk : Known cfg y r.user pw) (hp : PermsSet y pw)
    (hpw : PwOk cfg r pw) (ha : attempts y.log ≠ 0) (hn : pw = [] → NoPw y)
    (ho : attempts y.log ≤ 1 → y.opts = {})
    (hpa : pw ≠ [] → pa = true)
    (hpa' : pa = true → pw = [] → ∃ a, y.translation.map (·.account) = some a ∧
      (a.noPassword = some [] ∨ a.noPassword = some (ascii "sftp"))) :
    AuthInv cfg (y.byMethod cfg r pa async) := by
  unfold Auth.byMethod
  split
  · rename_i hm
    have := pwOk_method hpw (by rw [hm]; decide)
    subst this
    exact inv_publickey h (hn rfl) ht hr hk hp hm ha
  split
  · rename_i hm
    have := pwOk_method hpw (by rw [hm]; decide)
    subst this
    exact inv_hostBased h (hn rfl) ht hr hk hp hm ha
  rename_i hm1 hm2
  have hreq := request_eq hr.eq hr.service
  cases hpav : pa with
  | false =>
    have : pw = [] := by
      by_cases h0 : pw = []
      · exact h0
      · have := hpa h0; rw [hpav] at this; simp at this
    exact inv_failLater h (hn this) hr.ua _
  | true =>
    refine inv_accept (async := async) h y.hostbased ht hr hk hp ?_ (fun h1 _ _ => by rw [ho h1]; rfl)
    rcases hpw with ⟨h1, h2, h3, h4⟩ | ⟨h1, h2⟩
    · refine .inl ⟨h1, h2, h3, h1, ?_⟩
      show lastRequest y.log = some (authRequest r.user r.method _)
      rw [hr.last, hreq, h4]
    · refine .inr ⟨h1, .inr (.inr ⟨hm1, hm2, ?_, ⟨r.rest, ?_⟩, hpa' hpav h1⟩)⟩
      · apply h2
        obtain ⟨a, ha, _⟩ := hpa' hpav h1
        cases hc : cfg.translation with
        | true => rfl
        | false => rw [h.tr hc] at ha; simp at ha
      · show lastRequest y.log = some (authRequest r.user r.method _)
        rw [hr.last, hreq]

theorem passwordAccepted_iff {a : Account} {pw : Bytes} : (pw ≠ [] → passwordAccepted a pw = true) ∧
    (passwordAccepted a pw = true → pw = [] → a.noPassword = some [] ∨ a.noPassword = some (ascii "sftp")) := by
  unfold passwordAccepted
  cases pw with
  | cons c t => simp
  | nil =>
    refine ⟨by simp, ?_⟩
    cases hn : a.noPassword with
    | none => simp
    | some v => simp [or_comm]

theorem pre_applyAccount {cfg : AuthCfg} {y : Auth} (h : Pre cfg y) (a : Account) (pw : Bytes)
    (ha : attempts y.log ≠ 0) : Pre cfg (y.applyAccount a pw) :=
  ⟨h.auth, h.host, h.chan, h.out, h.prox, h.svc, h.ua, h.acc, h.tr, h.prev, h.noLogin, fun h0 => absurd h0 ha⟩

theorem perms_applyAccount {y : Auth} {a : Account} {pw : Bytes} (hf : FreshPerms y)
    (hy : y.translation.map (·.account) = some a) : PermsSet (y.applyAccount a pw) pw := by
  have e : (y.applyAccount a pw).translation.map (·.account) = some a := hy
  unfold PermsSet
  rw [e]
  have hf' : attempts y.log ≤ 1 → y.allowExec = true ∧ y.allowSftp = true ∧ y.sftpOnly = false :=
    fun h => (hf h).2
  refine ⟨?_, ?_, ?_, ?_⟩
  · simp only [Auth.login, Auth.applyAccount, mayExec, Bool.and_eq_true]
    rintro ⟨⟨_, h1⟩, h2⟩
    simp_all
  · simp only [Auth.login, Auth.applyAccount, maySftp]
    cases a.shell <;> simp
  · simp only [Auth.login, Auth.applyAccount, isSftpOnly]
    intro h1; simp [h1]
  · intro h1
    obtain ⟨h2, h3, h4⟩ := hf' h1
    simp only [Auth.login, Auth.applyAccount, mayExec, maySftp, isSftpOnly, h2, h3, h4]
    refine ⟨?_, ?_, ?_⟩
    · cases a.sftpOnlyToken <;> cases a.shell <;> simp
    · cases a.shell <;> simp
    · simp

theorem inv_accountKnown {cfg : AuthCfg} {y : Auth} (h : Pre cfg y) {r : AuthReq} {pw : Bytes} {t : Translation}
    {async : Bool} (ht : y.task = none) (hr : ReqOk2 y r) (htr : cfg.translation = true)
    (hy : y.translation = some t) (hu : t.user = r.user) (hpt : t.account.ok = true → t.password = pw)
    (hf : FreshPerms y) (hpw : PwOk cfg r pw) (ha : attempts y.log ≠ 0) :
    AuthInv cfg (y.accountKnown cfg r pw t.account async) := by
  unfold Auth.accountKnown
  cases hok : t.account.ok with
  | false =>
    refine inv_failLater h ?_ hr.ua _
    intro t' ht' hok'
    rw [hy] at ht'
    simp only [Option.some.injEq] at ht'
    subst ht'
    rw [hok] at hok'; simp at hok'
  | true =>
    have h' := pre_applyAccount h t.account pw ha
    have hacct : y.translation.map (·.account) = some t.account := by rw [hy]; rfl
    simp only [Bool.not_true, cond_false]
    cases t.account.shell && !t.account.shellValid with
    | true => exact inv_disconnect h' 7
    | false =>
      refine inv_byMethod h' (pw := pw) ht ⟨⟨hr.last, hr.eq, hr.svc, hr.ua⟩, hr.service, hr.valid⟩
        (.inl ⟨htr, t, hy, hu, hpt hok, hok⟩) (perms_applyAccount hf hacct) hpw ha ?_ (fun h1 => (hf h1).1)
        passwordAccepted_iff.1 (fun h1 h2 => ⟨_, hacct, passwordAccepted_iff.2 h1 h2⟩)
      intro h0 t' ht' _
      have ht' : y.translation = some t' := ht'
      rw [hy] at ht'
      simp only [Option.some.injEq] at ht'
      subst ht'
      rw [hpt hok, h0]

theorem inv_lazyTranslate {cfg : AuthCfg} {y : Auth} (h : Pre cfg y) (hn : NoPw y) {r : AuthReq} {pw : Bytes}
    {async : Bool} (ht : y.task = none) (hr : ReqOk2 y r) (htr : cfg.translation = true)
    (hf : FreshPerms y) (hpw : PwOk cfg r pw) (ha : attempts y.log ≠ 0) :
    AuthInv cfg (y.lazyTranslate cfg r pw async) := by
  unfold Auth.lazyTranslate
  have hq : AuthInv cfg { y with task := some (.translate r pw) } :=
    .inl ⟨pre_task h _, .inr ⟨hn, ⟨⟨hr.last, hr.eq, hr.svc, hr.ua⟩, hr.service, hr.valid⟩, hf, htr, hpw⟩⟩
  split
  · rename_i t hy
    cases hc : pw.isEmpty && t.user == r.user with
    | false => exact hq
    | true =>
      simp only [Bool.and_eq_true, List.isEmpty_iff, beq_iff_eq] at hc
      obtain ⟨rfl, hu⟩ := hc
      exact inv_accountKnown h ht hr htr hy hu (hn t hy) hf hpw ha
  · exact hq

theorem inv_afterTarpit {cfg : AuthCfg} {y : Auth} (h : Pre cfg y) (hn : NoPw y) {r : AuthReq}
    {async : Bool} (ht : y.task = none) (hr : ReqOk y r) (hf : FreshPerms y) (ha : attempts y.log ≠ 0) :
    AuthInv cfg (y.afterTarpit cfg r async) := by
  unfold Auth.afterTarpit
  split
  · exact inv_fail h hn _ _
  · rename_i hs
    simp only [ne_eq, Decidable.not_not] at hs
    cases hv : isValidUsername r.user with
    | false => exact inv_disconnect h 15
    | true =>
      have hr2 : ReqOk2 y r := ⟨hr, hs, (isValidUsername_iff _).mp hv⟩
      simp only [Bool.not_true, cond_false]
      cases htr : cfg.translation with
      | true =>
        simp only [cond_true]
        unfold Auth.withTranslation
        split
        · rename_i hm
          split
          · exact inv_malformed h _
          · rename_i c pw s' hpp
            obtain ⟨b, hb1, hb2⟩ := parsePassword_inv hpp
            cases hc : c || pw.isEmpty with
            | true => exact inv_fail h hn _ _
            | false =>
              simp only [Bool.or_eq_false_iff, List.isEmpty_eq_false_iff] at hc
              have hb0 : b = 0 := by
                rw [hc.1] at hb2
                simpa using hb2
              subst hb0
              exact inv_lazyTranslate h hn ht hr2 htr hf (.inl ⟨hc.2, htr, hm, hb1⟩) ha
        · rename_i hm
          exact inv_lazyTranslate h hn ht hr2 htr hf (.inr ⟨rfl, fun _ => hm⟩) ha
      | false =>
        simp only [cond_false]
        cases hg : cfg.getpwnam r.user with
        | false => exact inv_failLater h hn hr.ua _
        | true =>
          refine inv_byMethod h (pw := []) ht hr2 (.inr ⟨htr, h.tr htr, hg⟩) ?_
            (.inr ⟨rfl, fun h1 => by rw [htr] at h1; simp at h1⟩) ha (fun _ => hn) (fun h1 => (hf h1).1)
            (fun h1 => absurd rfl h1) (fun h1 => by simp at h1)
          unfold PermsSet
          rw [h.tr htr]
          refine ⟨fun _ => rfl, fun _ => rfl, fun h1 => by simp [isSftpOnly] at h1, fun h1 => ?_⟩
          exact (hf h1).2

/-! ### After authentication -/

/-- Entries which don't change the state of a session. -/
def calmEntry : AuthEntry → Bool
  | .loggedIn _ | .restricted _ | .account .. | .noMoreSessions => false
  | _ => true

theorem post_snoc {cfg : AuthCfg} {y y' : Auth} {e : AuthEntry} (h : AuthPost cfg y) (he : Before cfg y.log e)
    (hc : calmEntry e = true := by rfl)
    (h1 : y'.authenticated = y.authenticated := by rfl) (h2 : y'.channels = y.channels := by rfl)
    (h3 : y'.proxied = y.proxied := by rfl) (h4 : y'.task = y.task := by rfl)
    (h5 : y'.allowExec = y.allowExec ∧ y'.allowSftp = y.allowSftp ∧ y'.sftpOnly = y.sftpOnly ∧
      y'.username = y.username ∧ y'.opts = y.opts ∧ y'.translation = y.translation ∧
      y'.noMoreSessions = y.noMoreSessions ∧ y'.outgoing = y.outgoing ∧ y'.targetDone = y.targetDone := by
        exact ⟨rfl, rfl, rfl, rfl, rfl, rfl, rfl, rfl, rfl⟩)
    (hl : y'.log = y.log ++ [e] := by rfl) : AuthPost cfg y' where
  auth := h1.trans h.auth
  login := by obtain ⟨l, hl'⟩ := h.login; exact ⟨l, by rw [hl]; exact List.mem_append_left _ hl'⟩
  perms := by
    obtain ⟨l, hl', g1, g2, g3, g4⟩ := h.perms
    exact ⟨l, by rw [hl]; exact List.mem_append_left _ hl', by rw [h5.1, g1], by rw [h5.2.1, g2],
      by rw [h5.2.2.1, g3], by rw [h5.2.2.2.1, g4]⟩
  eff := by
    rw [hl, h5.2.2.2.2.1, inEffect_snoc, ← h.eff]
    cases e <;> simp_all [calmEntry]
  acc := by
    rw [hl, h5.2.2.2.2.2.1, lastAccount_snoc, ← h.acc]
    cases e <;> simp_all [calmEntry]
  nms hn := by
    rw [h5.2.2.2.2.2.2.1, h2]
    rw [hl] at hn
    apply h.nms
    cases e <;> simp_all [calmEntry]
  chan hc := by rw [hl]; exact List.mem_append_left _ (h.chan (by rw [← h2]; exact hc))
  chan1 hc := by rw [h5.2.2.2.2.2.2.2.1, h3, h4]; exact h.chan1 (by rw [← h2]; exact hc)
  prox hc := by
    rw [hl, h5.2.2.2.2.1]
    have := h.prox (by rw [← h3]; exact hc)
    exact ⟨List.mem_append_left _ this.1, this.2.elim fun p hp => ⟨p, List.mem_append_left _ hp.1, hp.2⟩⟩
  prev := by rw [hl]; exact allPrev_snoc h.prev he
  task := by rw [h4]; exact h.task
  tdone hc := by rw [h5.2.2.2.2.2.2.2.2]; exact h.tdone (by rw [← h3]; exact hc)
  outTask hc := by rw [h4]; exact h.outTask (by rw [← h5.2.2.2.2.2.2.2.1]; exact hc)

theorem post_disconnect {cfg : AuthCfg} {y : Auth} (h : AuthPost cfg y) (n : Nat) : AuthPost cfg (y.disconnect n) :=
  post_snoc (e := .disconnected n) h (before_plain rfl)

theorem post_close {cfg : AuthCfg} {y : Auth} (h : AuthPost cfg y) : AuthPost cfg y.close :=
  post_snoc (e := .closed) h (before_plain rfl)

theorem post_malformed {cfg : AuthCfg} {y : Auth} (h : AuthPost cfg y) (async : Bool) : AuthPost cfg (y.malformed async) := by
  cases async
  · exact post_disconnect h 2
  · exact post_close h

/-- Effects without further conditions. -/
def simpleEffect : AuthEntry → Bool
  | .openRefused _ | .unbindTcp .. | .noMoreSessions | .requestRefused _ | .channelMessage .. | .toClient .. => true
  | _ => false

/-- An effect after a login. -/
theorem before_effect {cfg : AuthCfg} {a : List AuthEntry} {e : AuthEntry} (he : simpleEffect e = true)
    (hs : .success ∈ a) : Before cfg a e := by
  cases e <;> simp_all [Before, simpleEffect]

theorem execOk_of {cfg : AuthCfg} {y : Auth} (h : AuthPost cfg y) (he : y.allowExec = true) : ExecOk y.log := by
  obtain ⟨l, h1, h2, _⟩ := h.perms
  exact ⟨l, h1, by rw [← h2]; exact he⟩

theorem forwardOk_of {cfg : AuthCfg} {y : Auth} (h : AuthPost cfg y) (he : y.isForwardingAllowed = true) :
    ForwardOk y.log := by
  simp only [Auth.isForwardingAllowed, Bool.and_eq_true, Bool.not_eq_true'] at he
  refine ⟨execOk_of h he.1.2, ⟨_, h.eff, he.1.1⟩, ?_⟩
  intro u p acct ha hs
  rw [h.acc] at ha
  cases ht : y.translation with
  | none => rw [ht] at ha; simp at ha
  | some t =>
    rw [ht] at ha
    simp only [Option.map_some, Option.some.injEq, Prod.mk.injEq] at ha
    obtain ⟨_, _, rfl⟩ := ha
    have := he.2
    rw [ht] at this
    simp only [Bool.and_eq_false_iff, hs, Bool.true_eq_false, false_or] at this
    exact this

theorem post_channelPacket {cfg : AuthCfg} {y : Auth} (h : AuthPost cfg y) (hc : y.channels = true) (m : UInt8)
    (p : Bytes) : AuthPost cfg (y.channelPacket m p) := by
  have hs := h.chan hc
  unfold Auth.channelPacket
  split
  · split
    · exact post_malformed h _
    · unfold Auth.createChannel
      split
      · cases hnm : y.noMoreSessions
        · exact post_snoc (e := .openSession) h ⟨hs, fun hx => by rw [(h.nms hx).1] at hnm; simp at hnm⟩
        · exact post_disconnect h 2
      split
      · cases hfw : y.isForwardingAllowed
        · exact post_snoc h (before_effect (e := .openRefused 1) rfl hs)
        · simp only [Bool.not_true, cond_false]
          split
          · exact post_malformed h _
          · rename_i host port _; exact post_snoc (e := .connectTcp host port) h ⟨hs, forwardOk_of h hfw⟩
      split
      · cases hlf : y.isLocalForwardingAllowed
        · exact post_snoc h (before_effect (e := .openRefused 1) rfl hs)
        · simp only [Bool.not_true, cond_false]
          split
          · exact post_malformed h _
          · rename_i path _; exact post_snoc (e := .connectLocal path) h ⟨hs, execOk_of h hlf⟩
      · exact post_snoc h (before_effect (e := .openRefused 3) rfl hs)
  · exact post_snoc h (before_effect (e := .channelMessage m p) rfl hs)

theorem post_globalPacket {cfg : AuthCfg} {y : Auth} (h : AuthPost cfg y) (hc : y.channels = true)
    (p : Bytes) : AuthPost cfg (y.globalPacket p) := by
  have hs := h.chan hc
  unfold Auth.globalPacket
  split
  · exact post_malformed h _
  · unfold Auth.globalRequest
    split
    · cases hfw : y.isForwardingAllowed
      · exact post_snoc h (before_effect (e := .requestRefused _) rfl hs)
      · simp only [Bool.not_true, cond_false]
        split
        · exact post_close h
        · rename_i host port _; exact post_snoc (e := .bindTcp host port) h ⟨hs, forwardOk_of h hfw⟩
    split
    · split
      · exact post_close h
      · rename_i host port _; exact post_snoc h (before_effect (e := .unbindTcp host port) rfl hs)
    split
    · obtain ⟨l, hl⟩ := h.login
      obtain ⟨l', hl', hp⟩ := h.perms
      refine ⟨h.auth, ⟨l, List.mem_append_left _ hl⟩, ⟨l', List.mem_append_left _ hl', hp⟩, ?_, ?_, fun _ => ⟨rfl, hc⟩,
        fun h1 => List.mem_append_left _ (h.chan h1), h.chan1,
        fun h1 => ⟨List.mem_append_left _ (h.prox h1).1, (h.prox h1).2.elim fun p hp => ⟨p, List.mem_append_left _ hp.1, hp.2⟩⟩,
        allPrev_snoc h.prev (before_effect (e := .noMoreSessions) rfl hs), h.task, h.tdone, h.outTask⟩
      · simp only [Auth.say, inEffect_snoc]; exact h.eff
      · simp only [Auth.say, lastAccount_snoc]; exact h.acc
    split
    · unfold Auth.optionsRequest
      cases y.hostbased
      · exact post_snoc h (before_effect (e := .requestRefused _) rfl hs)
      · simp only [Bool.not_true, cond_false]
        split
        · exact post_close h
        · rename_i o _
          cases hro : (y.opts.restrict o).2
          · exact post_snoc h (before_effect (e := .requestRefused _) rfl hs)
          · obtain ⟨l, hl⟩ := h.login
            obtain ⟨l', hl', hp⟩ := h.perms
            have hc1 := h.chan1 hc
            simp only [cond_true]
            refine ⟨h.auth, ⟨l, List.mem_append_left _ hl⟩, ⟨l', List.mem_append_left _ hl', hp⟩, ?_, ?_, ?_,
              fun h1 => List.mem_append_left _ (h.chan h1), h.chan1, ?_,
              allPrev_snoc h.prev (e := .restricted _) ⟨hs, _, h.eff, ?_⟩, h.task, h.tdone, h.outTask⟩
            · simp [Auth.say]
            · simp only [Auth.say, lastAccount_snoc]; exact h.acc
            · intro h1; exact h.nms (by simpa [Auth.say] using h1)
            · intro h1; have h1 : y.proxied = true := h1; rw [hc1.2.1] at h1; simp at h1
            · exact (C34_least (Prod.ext rfl hro)).1
    · exact post_snoc h (before_effect (e := .requestRefused _) rfl hs)

theorem post_transport {cfg : AuthCfg} {y : Auth} (h : AuthPost cfg y) (m : UInt8) : AuthPost cfg (y.transportPacket m) := by
  unfold Auth.transportPacket
  split
  · exact post_close h
  · split
    · exact h
    · exact post_snoc (e := .unimplemented) h (before_plain rfl)

theorem post_packet {cfg : AuthCfg} {y : Auth} (h : AuthPost cfg y) (m : UInt8) (p : Bytes) (d : Bool) :
    AuthPost cfg (y.packet cfg m p d) := by
  unfold Auth.packet
  split
  · rename_i y' hl
    unfold Auth.laterHandlers at hl
    cases h1 : y.proxied && shouldProxy m with
    | true =>
      simp only [h1, cond_true, Option.some.injEq] at hl
      subst hl
      simp only [Bool.and_eq_true] at h1
      exact post_snoc (e := .toTarget m p) h ⟨(h.prox h1.1).1, (h.prox h1.1).2.elim fun p hp => ⟨_, p, hp.1, hp.2, h.eff⟩⟩
    | false =>
      simp only [h1, cond_false] at hl
      cases h2 : y.channels && isChannelMessage m with
      | true =>
        simp only [h2, cond_true, Option.some.injEq] at hl
        subst hl
        simp only [Bool.and_eq_true] at h2
        exact post_channelPacket h h2.1 m p
      | false =>
        simp only [h2, cond_false] at hl
        cases h3 : y.channels && m == MSG_GLOBAL_REQUEST with
        | true =>
          simp only [h3, cond_true, Option.some.injEq] at hl
          subst hl
          simp only [Bool.and_eq_true] at h3
          exact post_globalPacket h h3.1 p
        | false => simp [h3] at hl
  · unfold Auth.userAuthPacket
    cases y.userAuth
    · exact post_transport h m
    · simp only [Bool.not_true, cond_false]
      cases y.task.isSome && !allowedWhileOccupied m
      · simp only [cond_false]
        split
        · unfold Auth.serviceRequest
          split
          · exact post_malformed h _
          · split
            · exact post_snoc (e := .serviceAccepted _) h (by simp [Before, AuthEntry.isEffect])
            · exact post_disconnect h 7
        · split
          · unfold Auth.handleUserauthRequest
            rw [h.auth]
            exact h
          · exact post_transport h m
      · exact post_disconnect h 2

/-! ### Packets before authentication -/

theorem pre_received {cfg : AuthCfg} {y : Auth} (h : Pre cfg y) (m : UInt8) (p : Bytes) :
    Pre cfg (y.say (.received m p)) where
  auth := h.auth
  host := h.host
  chan := h.chan
  out := h.out
  prox := h.prox
  svc hs := by simp only [Auth.say]; exact List.mem_append_left _ (h.svc hs)
  ua hs := by simp only [Auth.say]; exact List.mem_append_left _ (h.ua hs)
  acc := by simp only [Auth.say, lastAccount_snoc]; exact h.acc
  tr := h.tr
  prev := allPrev_snoc h.prev (by simp [Before, AuthEntry.isEffect])
  noLogin l := by simp [Auth.say, h.noLogin l]
  fresh0 := by
    simp only [Auth.say, attempts_snoc]
    intro h0
    exact h.fresh0 (by omega)

/-- Entries which don't change what is known about the request being processed. -/
def neutral : AuthEntry → Bool
  | .received m _ => m != 50
  | .account .. => false
  | _ => true

theorem taskOk_neutral {cfg : AuthCfg} {y : Auth} {e : AuthEntry} (he : neutral e = true)
    (h : TaskOk cfg y y.task) : TaskOk cfg (y.say e) (y.say e).task := by
  have h1 : lastRequest (y.log ++ [e]) = lastRequest y.log := by
    rw [lastRequest_snoc]
    cases e <;> simp_all [neutral]
  have h2 : attempts (y.log ++ [e]) = attempts y.log := by
    rw [attempts_snoc]
    cases e <;> simp_all [neutral]
  have hr : ∀ r, ReqOk y r → ReqOk (y.say e) r := fun r hr => ⟨h1.trans hr.last, hr.eq, hr.svc, hr.ua⟩
  have hr2 : ∀ r, ReqOk2 y r → ReqOk2 (y.say e) r := fun r hr' => ⟨hr r hr'.toReqOk, hr'.service, hr'.valid⟩
  have hf : FreshPerms y → FreshPerms (y.say e) := fun hf ha => hf (by rw [← h2]; exact ha)
  have hp : ∀ pw, PermsSet y pw → PermsSet (y.say e) pw := by
    intro pw ⟨a, b, c, d⟩
    exact ⟨a, b, c, fun h => d (by rw [← h2]; exact h)⟩
  show TaskOk cfg (y.say e) y.task
  cases ht : y.task with
  | none => trivial
  | some t =>
    rw [ht] at h
    cases t with
    | tarpit r => exact ⟨hr r h.1, hf h.2⟩
    | translate r pw => exact ⟨hr2 r h.1, hf h.2.1, h.2.2⟩
    | home r k => exact ⟨hr2 r h.toReqOk2, h.known, hp _ h.perms, h.method, h.rest, h.notFound, h.useHome⟩
    | failSleep => trivial
    | connect => exact h

theorem inv_say {cfg : AuthCfg} {y : Auth} {e : AuthEntry} (h : Pre cfg y) (hn : NoPw y) (ht : TaskOk cfg y y.task)
    (he : plain e = true) : AuthInv cfg (y.say e) :=
  .inl ⟨pre_plain h he y.stop y.task y.userAuth id, .inr ⟨hn, taskOk_neutral
    (by cases e <;> simp_all [plain, neutral]) ht⟩⟩

theorem inv_transport {cfg : AuthCfg} {y : Auth} (h : Pre cfg y) (hn : NoPw y) (ht : TaskOk cfg y y.task)
    (m : UInt8) : AuthInv cfg (y.transportPacket m) := by
  unfold Auth.transportPacket
  split
  · exact inv_close h
  · split
    · exact .inl ⟨h, .inr ⟨hn, ht⟩⟩
    · exact inv_say h hn ht rfl

theorem inv_packet {cfg : AuthCfg} {y : Auth} (h : Pre cfg y) (hn : NoPw y) (ht : TaskOk cfg y y.task)
    (m : UInt8) (p : Bytes) (d : Bool) : AuthInv cfg ((y.say (.received m p)).packet cfg m p d) := by
  have h' := pre_received h m p
  have hn' : NoPw (y.say (.received m p)) := hn
  have hl : (y.say (.received m p)).laterHandlers m p = none := by
    simp [Auth.laterHandlers, h'.prox, h'.chan]
  unfold Auth.packet
  rw [hl]
  simp only
  unfold Auth.userAuthPacket
  cases hua : (y.say (.received m p)).userAuth with
  | false =>
    simp only [Bool.not_false, cond_true]
    refine inv_transport h' hn' ?_ m
    have hua' : y.userAuth = false := hua
    show TaskOk cfg (y.say (.received m p)) y.task
    cases htk : y.task with
    | none => trivial
    | some t =>
      rw [htk] at ht
      cases t with
      | tarpit r => have := ht.1.ua; rw [hua'] at this; simp at this
      | translate r pw => have := ht.1.ua; rw [hua'] at this; simp at this
      | home r k => have := ht.ua; rw [hua'] at this; simp at this
      | failSleep => trivial
      | connect => exact ht
  | true =>
    simp only [Bool.not_true, cond_false]
    cases hocc : (y.say (.received m p)).task.isSome && !allowedWhileOccupied m with
    | true => exact inv_disconnect h' 2
    | false =>
      simp only [cond_false]
      have hnone : allowedWhileOccupied m = false → y.task = none := by
        intro hw
        rw [hw] at hocc
        simpa [Auth.say] using hocc
      split
      · rename_i hm
        subst hm
        have htn := hnone (by decide)
        unfold Auth.serviceRequest
        split
        · exact inv_malformed h' _
        · split
          · rename_i name _ hname
            subst hname
            refine .inl ⟨⟨h'.auth, h'.host, h'.chan, h'.out, h'.prox, ?_, ?_, ?_, h'.tr, ?_, ?_, ?_⟩, .inr ⟨hn', ?_⟩⟩
            · intro _; simp [Auth.say]
            · intro hs; exact List.mem_append_left _ (h'.ua hs)
            · simp only [Auth.say, lastAccount_snoc]; exact h.acc
            · exact allPrev_snoc h'.prev (by simp [Before, AuthEntry.isEffect])
            · intro l; simp [Auth.say, h.noLogin l]
            · simp only [Auth.say, attempts_snoc]; intro h0; exact h.fresh0 (by omega)
            · show TaskOk cfg _ y.task
              rw [htn]; trivial
          · exact inv_disconnect h' 7
      · split
        · rename_i hm
          subst hm
          have htn := hnone (by decide)
          unfold Auth.handleUserauthRequest
          rw [h'.auth]
          simp only [cond_false]
          cases hsv : (y.say (.received 50 p)).haveService with
          | false => exact inv_disconnect h' 2
          | true =>
            simp only [Bool.not_true, cond_false]
            unfold Auth.userAuthRequest
            split
            · exact inv_malformed h' _
            · rename_i r hpr
              obtain ⟨hr1, hr2⟩ := parseAuthReq_inv hpr
              have hr : ReqOk (y.say (.received 50 p)) r := by
                refine ⟨?_, hr1.trans hr2, hsv, hua⟩
                simp [Auth.say, hr1]
              have ha : attempts (y.say (.received 50 p)).log = attempts y.log + 1 := by
                simp only [Auth.say, attempts_snoc]; rfl
              have hf : FreshPerms (y.say (.received 50 p)) := by
                intro h1
                rw [ha] at h1
                exact h.fresh0 (by omega)
              cases d with
              | true => exact .inl ⟨pre_task h' _, .inr ⟨hn', ⟨hr.last, hr.eq, hr.svc, hr.ua⟩, hf⟩⟩
              | false => exact inv_afterTarpit h' hn' htn hr hf (by rw [ha]; omega)
        · rename_i hm5 hm50
          refine inv_transport h' hn' (taskOk_neutral ?_ ht) m
          simp only [neutral, bne_iff_ne]
          exact hm50

/-! ### Resuming the coroutine -/

theorem inv_translated {cfg : AuthCfg} {y : Auth} (h : Pre cfg y) {r : AuthReq} {pw : Bytes}
    (ht : y.task = none) (hr : ReqOk2 y r) (hf : FreshPerms y) (htr : cfg.translation = true)
    (hpw : PwOk cfg r pw) (ha : attempts y.log ≠ 0) (a : Option Account) :
    AuthInv cfg (y.translated cfg r pw a) := by
  cases a with
  | none => exact inv_disconnect h 7
  | some a =>
    have h' : Pre cfg { y with
        translation := some { user := r.user, password := pw, account := a }
        log := y.log ++ [AuthEntry.account r.user pw a] } := by
      refine ⟨h.auth, h.host, h.chan, h.out, h.prox, ?_, ?_, ?_, ?_, ?_, ?_, ?_⟩
      · intro hs; exact List.mem_append_left _ (h.svc hs)
      · intro hs; exact List.mem_append_left _ (h.ua hs)
      · simp
      · intro hc; rw [htr] at hc; simp at hc
      · exact allPrev_snoc h.prev (by simp [Before, AuthEntry.isEffect])
      · intro l; simp [h.noLogin l]
      · simp only [attempts_snoc]; intro h0; exact absurd (by simpa using h0) ha
    exact inv_accountKnown h' (t := { user := r.user, password := pw, account := a }) ht
      ⟨⟨by simp only [lastRequest_snoc]; exact hr.last, hr.eq, hr.svc, hr.ua⟩, hr.service, hr.valid⟩ htr rfl rfl
      (fun _ => rfl) (fun h1 => hf (by simpa [attempts_snoc] using h1)) hpw (by simpa [attempts_snoc] using ha)

theorem inv_homeRead {cfg : AuthCfg} {y : Auth} (h : Pre cfg y) (hn : NoPw y) {r : AuthReq} {k : KeyReq}
    (ht : y.task = none) (hh : HomeOk cfg y r k) (ha : attempts y.log ≠ 0) (text : Option Bytes) :
    AuthInv cfg (y.homeRead cfg r k text) := by
  have h' : Pre cfg (y.say (.homeKeys text)) := pre_plain h (e := .homeKeys text) rfl y.stop y.task y.userAuth id
  have ha' : attempts (y.say (.homeKeys text)).log = attempts y.log := by simp [Auth.say]
  unfold Auth.homeRead
  simp only
  split
  · rename_i o ho
    rw [Option.bind_eq_some_iff] at ho
    obtain ⟨t, rfl, ho⟩ := ho
    refine inv_keyAccepted (pre_opts h' o (by rw [ha']; exact ha)) hn ht
      ⟨⟨?_, hh.eq, hh.svc, hh.ua⟩, hh.service, hh.valid⟩ hh.known ?_ hh.method hh.rest ?_
    · simp only [Auth.say, lastRequest_snoc]; exact hh.last
    · obtain ⟨a, b, c, d⟩ := hh.perms
      exact ⟨a, b, c, fun h1 => d (by rw [← ha']; exact h1)⟩
    · have hnh : ((y.translation.map (·.account)).map (·.noHomeKeys)).getD false = false := by
        have := hh.useHome
        unfold Auth.useHome at this
        cases hy : y.translation with
        | none => rfl
        | some t =>
          rw [hy] at this
          simpa using this
      show KeyGrants _ ((y.translation.map (·.account)).bind (·.keys))
        (if ((y.translation.map (·.account)).map (·.noHomeKeys)).getD false = true then none else
          homeText (y.log ++ [.homeKeys (some t)])) _ _
      rw [hnh]
      simp only [Bool.false_eq_true, if_false, homeText_snoc]
      exact findKey_none hh.notFound ho
  · exact inv_failLater h' hn hh.ua _

/-- There was a request. -/
theorem attempts_pos {log : List AuthEntry} {p : Bytes} (h : lastRequest log = some p) : attempts log ≠ 0 := by
  induction log using Aux.snoc_ind with
  | h0 => simp [lastRequest] at h
  | h1 a e ih =>
    rw [lastRequest_snoc] at h
    rw [attempts_snoc]
    cases e with
    | received m p' =>
      simp only at h ⊢
      split at h
      · rename_i hm; simp [hm]
      · rename_i hm; have := ih h; omega
    | _ => have := ih h; omega

theorem inv_resume {cfg : AuthCfg} {y : Auth} (h : Pre cfg y) (hn : NoPw y) {t : AuthTask}
    (htk : y.task = some t) (ht : TaskOk cfg y (some t)) (ev : AuthEv) : AuthInv cfg (y.resume cfg t ev) := by
  have hself : AuthInv cfg y := .inl ⟨h, .inr ⟨hn, by rw [htk]; exact ht⟩⟩
  unfold Auth.resume
  split
  · exact inv_afterTarpit (pre_task h none) hn rfl ⟨ht.1.last, ht.1.eq, ht.1.svc, ht.1.ua⟩ ht.2
      (attempts_pos ht.1.last)
  · exact inv_translated (pre_task h none) rfl ⟨⟨ht.1.last, ht.1.eq, ht.1.svc, ht.1.ua⟩, ht.1.service, ht.1.valid⟩
      ht.2.1 ht.2.2.1 ht.2.2.2 (attempts_pos ht.1.last) _
  · exact inv_homeRead (pre_task h none) hn rfl
      ⟨⟨⟨ht.last, ht.eq, ht.svc, ht.ua⟩, ht.service, ht.valid⟩, ht.known, ht.perms, ht.method, ht.rest, ht.notFound,
        ht.useHome⟩ (attempts_pos ht.last) _
  · exact inv_fail h hn _ _
  · exact absurd ht id
  · exact absurd ht id
  · exact hself

theorem post_resume {cfg : AuthCfg} {y : Auth} (h : AuthPost cfg y) (ev : AuthEv) (t : AuthTask)
    (ht : y.task = some t) : AuthPost cfg (y.resume cfg t ev) := by
  have : t = .connect := by
    rcases h.task with h1 | h1 <;> rw [ht] at h1 <;> simp at h1
    exact h1
  subst this
  unfold Auth.resume
  split <;> try contradiction
  · exact ⟨h.auth, h.login, h.perms, h.eff, h.acc, h.nms, h.chan,
      fun hc => by have := h.chan1 hc; rw [ht] at this; simp at this, h.prox, h.prev, .inl rfl, h.tdone, fun _ => rfl⟩
  · exact post_close h
  · exact h

theorem post_step {cfg : AuthCfg} {y : Auth} (h : AuthPost cfg y) (ev : AuthEv) : AuthPost cfg (y.step cfg ev) := by
  unfold Auth.step
  cases y.stop with
  | true => exact h
  | false =>
    simp only [cond_false]
    have htask : ∀ ev, AuthPost cfg (match y.task with | none => y | some t => y.resume cfg t ev) := by
      intro ev
      split
      · exact h
      · rename_i t ht; exact post_resume h ev t ht
    cases ev with
    | encrypted =>
      cases y.encrypted
      · exact post_snoc (e := .encrypted) h (by simp [Before, AuthEntry.isEffect])
      · exact h
    | packet m p d =>
      exact post_packet (post_snoc (e := .received m p) h (by simp [Before, AuthEntry.isEffect])) m p d
    | targetSuccess =>
      cases hout : y.outgoing && !y.targetDone
      · exact h
      · simp only [cond_true]
        have hd : AuthPost cfg { y with targetDone := true } :=
          ⟨h.auth, h.login, h.perms, h.eff, h.acc, h.nms, h.chan, h.chan1, h.prox, h.prev, h.task, fun _ => rfl, h.outTask⟩
        unfold Auth.targetReady
        split
        · exact post_disconnect hd 10
        · rename_i s hs
          have hcr := optionsPacket_carries hs
          have hp1 := allPrev_snoc h.prev (e := .requestToTarget (s.buf.drop 5)) ⟨h.login, _, h.eff, hcr⟩
          have hl : ∃ l, .loggedIn l ∈ y.log ++ [.requestToTarget (s.buf.drop 5)] := by
            obtain ⟨l, hl⟩ := h.login
            exact ⟨l, List.mem_append_left _ hl⟩
          have hp2 := allPrev_snoc hp1 (e := .success) hl
          rw [List.append_assoc] at hp2
          obtain ⟨l, hl⟩ := h.login
          obtain ⟨l', hl', hp⟩ := h.perms
          have e2 : ∀ e1 e2 : AuthEntry, y.log ++ [e1, e2] = (y.log ++ [e1]) ++ [e2] := by simp
          refine ⟨h.auth, ⟨l, List.mem_append_left _ hl⟩, ⟨l', List.mem_append_left _ hl', hp⟩, ?_, ?_, ?_, ?_, ?_, ?_,
            hp2, h.task, fun _ => rfl, h.outTask⟩
          · simp only [e2, inEffect_snoc]; exact h.eff
          · simp only [e2, lastAccount_snoc]; exact h.acc
          · intro h1; exact h.nms (by simpa using h1)
          · intro _; simp
          · intro hc
            have := h.chan1 hc
            rw [this.1] at hout
            simp at hout
          · intro _; exact ⟨by simp, _, List.mem_append_right _ (by simp), hcr⟩
    | targetPacket m p =>
      cases hp : y.proxied
      · exact h
      · simp only [cond_true]
        cases shouldProxy m
        · exact post_snoc (e := .targetReceived m p) h (by simp [Before, AuthEntry.isEffect])
        · have h1 : AuthPost cfg (y.say (.targetReceived m p)) :=
            post_snoc (e := .targetReceived m p) h (by simp [Before, AuthEntry.isEffect])
          have h2 : AuthPost cfg ((y.say (.targetReceived m p)).say (.toClient m p)) :=
            post_snoc h1 (before_effect (e := .toClient m p) rfl (h1.prox hp).1)
          have e : y.log ++ [.targetReceived m p, .toClient m p] = (y.log ++ [.targetReceived m p]) ++ [.toClient m p] := by
            simp
          have hch : ∀ P : Prop, y.channels = true → P := fun P hc => by
            have := h.chan1 hc; rw [hp] at this; simp at this
          exact ⟨h.auth, by rw [e]; exact h2.login, by rw [e]; exact h2.perms, by rw [e]; exact h2.eff,
            by rw [e]; exact h2.acc, by rw [e]; exact h2.nms, hch _, hch _, fun _ => by rw [e]; exact h2.prox hp,
            by rw [e]; exact h2.prev, h.task, fun _ => h.tdone hp, h.outTask⟩
    | targetDisconnecting =>
      exact ⟨h.auth, h.login, h.perms, h.eff, h.acc, h.nms, h.chan, fun hc => ⟨(h.chan1 hc).1, rfl, (h.chan1 hc).2.2⟩,
        fun h => by simp at h, h.prev, h.task, fun h => by simp at h, h.outTask⟩
    | targetGone =>
      cases y.outgoing
      · exact h
      · exact post_disconnect h 10
    | authTimeout => simp only [h.auth, cond_true]; exact h
    | closed => exact post_close h
    | timer => exact htask _
    | translated a => exact htask _
    | home t => exact htask _
    | connected ok => exact htask _

theorem pre_step {cfg : AuthCfg} {y : Auth} (h : Pre cfg y) (hst : y.stop = true ∨ NoPw y ∧ TaskOk cfg y y.task)
    (ev : AuthEv) : AuthInv cfg (y.step cfg ev) := by
  unfold Auth.step
  cases hs : y.stop with
  | true => exact .inl ⟨h, .inl hs⟩
  | false =>
    simp only [cond_false]
    obtain ⟨hn, ht⟩ : NoPw y ∧ TaskOk cfg y y.task := by
      rcases hst with h1 | h1
      · rw [hs] at h1; simp at h1
      · exact h1
    have hself : AuthInv cfg y := .inl ⟨h, .inr ⟨hn, ht⟩⟩
    have htask : ∀ ev, AuthInv cfg (match y.task with | none => y | some t => y.resume cfg t ev) := by
      intro ev
      split
      · exact hself
      · rename_i t htk; rw [htk] at ht; exact inv_resume h hn htk ht ev
    cases ev with
    | encrypted =>
      cases y.encrypted
      · simp only [cond_false]
        refine .inl ⟨⟨h.auth, h.host, h.chan, h.out, h.prox, ?_, ?_, ?_, h.tr, ?_, ?_, ?_⟩, .inr ⟨hn, ?_⟩⟩
        · intro hs; exact List.mem_append_left _ (h.svc hs)
        · intro _; simp [Auth.say]
        · simp only [Auth.say, lastAccount_snoc]; exact h.acc
        · exact allPrev_snoc h.prev (by simp [Before, AuthEntry.isEffect])
        · intro l; simp [Auth.say, h.noLogin l]
        · simp only [Auth.say, attempts_snoc]; intro h0; exact h.fresh0 (by omega)
        · refine taskOk_neutral (y := { y with encrypted := true, userAuth := true, stop := false }) (e := .encrypted) rfl ?_
          show TaskOk cfg _ y.task
          cases htk : y.task with
          | none => trivial
          | some t =>
            rw [htk] at ht
            cases t with
            | tarpit r => exact ⟨⟨ht.1.last, ht.1.eq, ht.1.svc, rfl⟩, ht.2⟩
            | translate r pw =>
              exact ⟨⟨⟨ht.1.last, ht.1.eq, ht.1.svc, rfl⟩, ht.1.service, ht.1.valid⟩, ht.2.1, ht.2.2⟩
            | home r k =>
              exact ⟨⟨⟨ht.last, ht.eq, ht.svc, rfl⟩, ht.service, ht.valid⟩, ht.known, ht.perms, ht.method, ht.rest,
                ht.notFound, ht.useHome⟩
            | failSleep => trivial
            | connect => exact ht
      · exact hself
    | packet m p d => exact inv_packet h hn ht m p d
    | targetSuccess => rw [h.out]; exact hself
    | targetPacket m p => rw [h.prox]; exact hself
    | targetDisconnecting =>
      have e : { y with proxied := false, stop := false } = y := by
        have := h.prox
        cases y; simp_all
      simp only
      rw [e]; exact hself
    | targetGone => rw [h.out]; exact hself
    | authTimeout => rw [h.auth]; exact inv_disconnect h 10
    | closed => exact inv_close h
    | timer => exact htask _
    | translated a => exact htask _
    | home t => exact htask _
    | connected ok => exact htask _

theorem inv_init (cfg : AuthCfg) : AuthInv cfg {} :=
  .inl ⟨⟨rfl, rfl, rfl, rfl, rfl, by simp, by simp, rfl, fun _ => rfl, allPrev_nil _, by simp, fun _ => ⟨rfl, rfl, rfl, rfl⟩⟩,
    .inr ⟨by intro t ht; simp at ht, trivial⟩⟩

theorem inv_run {cfg : AuthCfg} (evs : List AuthEv) : AuthInv cfg (Auth.run cfg {} evs) := by
  induction evs using Aux.snoc_ind with
  | h0 => exact inv_init cfg
  | h1 evs ev ih =>
    simp only [Auth.run, List.foldl_append, List.foldl_cons, List.foldl_nil] at ih ⊢
    rcases ih with ⟨h1, h2⟩ | h1
    · exact pre_step h1 h2 ev
    · exact .inr (post_step h1 ev)

theorem before_run {cfg : AuthCfg} (evs : List AuthEv) : AllPrev (Before cfg) (Auth.run cfg {} evs).log := by
  rcases inv_run (cfg := cfg) evs with ⟨h1, _⟩ | h1
  · exact h1.prev
  · exact h1.prev

end Lukko
