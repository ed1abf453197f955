import Verif.Proof.AuthComplete
/-
  Properties C29 – C33, C36, C39 and C57, and those parts of C34 and C35 which are
  about a connection.

  A connection is `Auth.run cfg {} evs` for an arbitrary sequence of events `evs`; its
  `log` says what happened (Spec/Auth.lean).
-/
namespace Lukko
open Model Spec

/-! ## Examples -/

/-- A server; "signatures" consist of key and message. -/
def demoAuth : AuthCfg where
  decode := some
  parseKey _ := true
  verify k m s := some (s == k ++ m)
  sessionId := [1]
  globalKeys := [([7], { noPortForwarding := true }), ([8], {})]
  hostKeys := [([9], {})]

def demoGreeting : List AuthEv := [.encrypted, .packet 5 (str (ascii "ssh-userauth")) false]

/-- "Would this key be accepted?" -/
def demoKeyQuery (k : UInt8) : AuthEv :=
  .packet 50 (authRequest (ascii "joe") (ascii "publickey") (0 :: (str (ascii "alg") ++ str [k]))) false

def demoPassword : AuthEv :=
  .packet 50 (authRequest (ascii "joe") (ascii "password") (0 :: str (ascii "secret"))) false

def demoKeySig (k : UInt8) : AuthEv :=
  .packet 50 (authRequest (ascii "joe") (ascii "publickey") (1 :: (str (ascii "alg") ++ (str [k] ++ str
    ([k] ++ signedBytes [1] (authRequest (ascii "joe") (ascii "publickey") (1 :: (str (ascii "alg") ++ str [k])))))))) false

def demoHostSig : AuthEv :=
  .packet 50 (authRequest (ascii "joe") (ascii "hostbased") (str (ascii "alg") ++ (str [9] ++ (str (ascii "host") ++
    (str (ascii "me") ++ str ([9] ++ signedBytes [1] (authRequest (ascii "joe") (ascii "hostbased")
      (str (ascii "alg") ++ (str [9] ++ (str (ascii "host") ++ str (ascii "me"))))))))))) false

/-- A logged-in client. -/
def demoLogin (k : UInt8) : List AuthEv := demoGreeting ++ [demoKeySig k, .translated (some {})]

def demoOpen (type : String) (data : Bytes) : AuthEv :=
  .packet 90 (str (ascii type) ++ (u32 0 ++ (u32 1000 ++ (u32 1000 ++ data)))) false

def demoDirectTcp : AuthEv := demoOpen "direct-tcpip" (str [1] ++ (u32 22 ++ (str [2] ++ u32 1)))

/-- The restrictions of the logins. -/
def logins (log : List AuthEntry) : List Login :=
  log.filterMap fun e => match e with | .loggedIn l => some l | _ => none

/-! ## C29 -/

/-- **C29.** Whatever happens, every effect of a message of the connection protocol comes
after a successful login and after USERAUTH_SUCCESS. -/
theorem C29_effects (cfg : AuthCfg) (evs : List AuthEv) {a b : List AuthEntry} {e : AuthEntry}
    (h : (Auth.run cfg {} evs).log = a ++ e :: b) (he : e.isEffect = true) :
    .success ∈ a ∧ ∃ l, .loggedIn l ∈ a := by
  have hb := before_run (cfg := cfg) evs
  have h1 := hb a e b h
  have hs : .success ∈ a := by
    cases e <;> simp only [AuthEntry.isEffect, Bool.false_eq_true] at he <;> simp only [Before] at h1 <;>
      first | exact h1.1 | exact h1 rfl
  refine ⟨hs, ?_⟩
  obtain ⟨a', b', hab⟩ := List.append_of_mem hs
  obtain ⟨l, hl⟩ := hb a' .success (b' ++ e :: b) (by rw [h, hab]; simp)
  exact ⟨l, by rw [hab]; simp [hl]⟩

example : .openSession ∈ (Auth.run demoAuth {} (demoLogin 8 ++ [demoOpen "session" []])).log := by decide +kernel

/-- No other than the transport and authentication layer knows the client yet. -/
theorem no_success {cfg : AuthCfg} {evs : List AuthEv} (h : .success ∉ (Auth.run cfg {} evs).log) :
    (Auth.run cfg {} evs).channels = false ∧ (Auth.run cfg {} evs).proxied = false := by
  rcases inv_run (cfg := cfg) evs with ⟨h1, _⟩ | h1
  · exact ⟨h1.chan, h1.prox⟩
  · constructor
    · cases hc : (Auth.run cfg {} evs).channels with
      | false => rfl
      | true => exact absurd (h1.chan hc) h
    · cases hc : (Auth.run cfg {} evs).proxied with
      | false => rfl
      | true => exact absurd (h1.prox hc).1 h

/-- **C29.** Before USERAUTH_SUCCESS, a message of the connection protocol is answered with
UNIMPLEMENTED or ends the connection, and does nothing else. -/
theorem C29_refused (cfg : AuthCfg) (evs : List AuthEv) {y : Auth} (hy : y = Auth.run cfg {} evs)
    (hs : y.stop = false) (hn : .success ∉ y.log) {m : UInt8} (hm : IsConnectionMessage m) (p : Bytes) (d : Bool) :
    y.step cfg (.packet m p d) = { y with log := y.log ++ [.received m p, .unimplemented] } ∨
    y.step cfg (.packet m p d) = { y with stop := true, log := y.log ++ [.received m p, .disconnected 2] } := by
  subst hy
  obtain ⟨h1, h2⟩ := no_success hn
  generalize Auth.run cfg {} evs = y at hs h1 h2
  have ht : ∀ y : Auth, y.transportPacket m = y.say .unimplemented := by
    intro y
    simp only [IsConnectionMessage, List.mem_cons, List.not_mem_nil, or_false] at hm
    unfold Auth.transportPacket
    rw [if_neg, if_neg]
    · rcases hm with rfl | rfl | rfl | rfl | rfl | rfl | rfl | rfl | rfl | rfl | rfl | rfl | rfl | rfl <;> decide
    · rcases hm with rfl | rfl | rfl | rfl | rfl | rfl | rfl | rfl | rfl | rfl | rfl | rfl | rfl | rfl <;> decide
  have e : y.step cfg (.packet m p d) = (y.say (.received m p)).userAuthPacket cfg m p d := by
    have h1' : (y.say (.received m p)).channels = false := h1
    have h2' : (y.say (.received m p)).proxied = false := h2
    simp only [Auth.step, hs, cond_false, Auth.packet, Auth.laterHandlers, h1', h2', Bool.false_and]
  rw [e]
  unfold Auth.userAuthPacket
  cases (y.say (.received m p)).userAuth with
  | false => left; simp only [Bool.not_false, cond_true]; rw [ht]; simp [Auth.say]
  | true =>
    simp only [Bool.not_true, cond_false]
    cases (y.say (.received m p)).task.isSome && !allowedWhileOccupied m with
    | true => right; simp [Auth.disconnect, Auth.say]
    | false =>
      left
      have n1 : m ≠ MSG_SERVICE_REQUEST := by
        rintro rfl; revert hm; decide
      have n2 : m ≠ MSG_USERAUTH_REQUEST := by
        rintro rfl; revert hm; decide
      simp only [cond_false, if_neg n1, if_neg n2]
      rw [ht]; simp [Auth.say]

example : (Auth.run demoAuth {} demoGreeting).stop = false ∧ .success ∉ (Auth.run demoAuth {} demoGreeting).log ∧
    IsConnectionMessage 90 := by decide +kernel

/-- **C29.** Login requires an encrypted connection and that the service was requested; there
is at most one login. -/
theorem C29_login (cfg : AuthCfg) (evs : List AuthEv) {a b : List AuthEntry} {l : Login}
    (h : (Auth.run cfg {} evs).log = a ++ .loggedIn l :: b) :
    .encrypted ∈ a ∧ .serviceAccepted (ascii "ssh-userauth") ∈ a ∧ ∀ l', .loggedIn l' ∉ a ++ b := by
  have hb := before_run (cfg := cfg) evs
  obtain ⟨_, _, h1, h2, h3, _⟩ := hb a _ b h
  refine ⟨h2, h1, fun l' hl' => ?_⟩
  rw [List.mem_append] at hl'
  rcases hl' with hl' | hl'
  · exact h3 l' hl'
  · obtain ⟨b1, b2, rfl⟩ := List.append_of_mem hl'
    obtain ⟨_, _, _, _, h4, _⟩ := hb (a ++ .loggedIn l :: b1) (.loggedIn l') b2 (by rw [h]; simp)
    exact h4 l (by simp)

example : (logins (Auth.run demoAuth {} (demoLogin 8)).log).length = 1 := by decide +kernel

/-- **C29.** An authentication request which comes before the service was accepted is not
processed. -/
theorem C29_no_service (cfg : AuthCfg) (evs : List AuthEv) {y : Auth} (hy : y = Auth.run cfg {} evs)
    (hs : y.stop = false) (hn : .serviceAccepted (ascii "ssh-userauth") ∉ y.log) (p : Bytes) (d : Bool) :
    y.step cfg (.packet 50 p d) = { y with log := y.log ++ [.received 50 p, .unimplemented] } ∨
    y.step cfg (.packet 50 p d) = { y with stop := true, log := y.log ++ [.received 50 p, .disconnected 2] } := by
  subst hy
  have hinv := inv_run (cfg := cfg) evs
  obtain ⟨h0, h1, h2, h3⟩ : (Auth.run cfg {} evs).authenticated = false ∧ (Auth.run cfg {} evs).channels = false ∧
      (Auth.run cfg {} evs).proxied = false ∧ (Auth.run cfg {} evs).haveService = false := by
    rcases hinv with ⟨h1, _⟩ | h1
    · refine ⟨h1.auth, h1.chan, h1.prox, ?_⟩
      cases hc : (Auth.run cfg {} evs).haveService with
      | false => rfl
      | true => exact absurd (h1.svc hc) hn
    · obtain ⟨l, hl⟩ := h1.login
      obtain ⟨a, b, hab⟩ := List.append_of_mem hl
      obtain ⟨_, hsv, _⟩ := C29_login cfg evs hab
      exact absurd (by rw [hab]; simp [hsv]) hn
  generalize Auth.run cfg {} evs = y at hs h0 h1 h2 h3
  have e : y.step cfg (.packet 50 p d) = (y.say (.received 50 p)).userAuthPacket cfg 50 p d := by
    have h1' : (y.say (.received 50 p)).channels = false := h1
    have h2' : (y.say (.received 50 p)).proxied = false := h2
    simp only [Auth.step, hs, cond_false, Auth.packet, Auth.laterHandlers, h1', h2', Bool.false_and]
  rw [e]
  unfold Auth.userAuthPacket
  cases (y.say (.received 50 p)).userAuth with
  | false =>
    left
    simp only [Bool.not_false, cond_true, Auth.transportPacket]
    rw [if_neg (by decide), if_neg (by decide)]
    simp [Auth.say]
  | true =>
    right
    simp only [Bool.not_true, cond_false]
    cases (y.say (.received 50 p)).task.isSome && !allowedWhileOccupied 50 with
    | true => simp [Auth.disconnect, Auth.say]
    | false =>
      have h0' : (y.say (.received 50 p)).authenticated = false := h0
      have h3' : (y.say (.received 50 p)).haveService = false := h3
      simp only [cond_false]
      rw [if_neg (by decide), if_pos (by decide)]
      simp only [Auth.handleUserauthRequest, h0', h3', cond_false, Bool.not_false, cond_true]
      simp [Auth.disconnect, Auth.say]

example : (Auth.run demoAuth {} [.encrypted]).stop = false ∧
    .serviceAccepted (ascii "ssh-userauth") ∉ (Auth.run demoAuth {} [.encrypted]).log := by decide +kernel

/-- **C29.** After the login, an authentication request changes nothing (it may be ignored,
answered with UNIMPLEMENTED, or end the connection). -/
theorem C29_after (cfg : AuthCfg) (evs : List AuthEv) {y : Auth} (hy : y = Auth.run cfg {} evs)
    (hs : y.stop = false) {l : Login} (hl : .loggedIn l ∈ y.log) (p : Bytes) (d : Bool) :
    y.step cfg (.packet 50 p d) = { y with log := y.log ++ [.received 50 p] } ∨
    y.step cfg (.packet 50 p d) = { y with log := y.log ++ [.received 50 p, .unimplemented] } ∨
    y.step cfg (.packet 50 p d) = { y with stop := true, log := y.log ++ [.received 50 p, .disconnected 2] } := by
  subst hy
  have hinv := inv_run (cfg := cfg) evs
  have ha : (Auth.run cfg {} evs).authenticated = true := by
    rcases hinv with ⟨h1, _⟩ | h1
    · exact absurd hl (h1.noLogin l)
    · exact h1.auth
  generalize Auth.run cfg {} evs = y at hs ha
  have e : y.step cfg (.packet 50 p d) = (y.say (.received 50 p)).userAuthPacket cfg 50 p d := by
    simp only [Auth.step, hs, cond_false, Auth.packet, Auth.laterHandlers]
    rw [show shouldProxy 50 = false by decide, show isChannelMessage 50 = false by decide,
      show ((50 : UInt8) == MSG_GLOBAL_REQUEST) = false by decide]
    simp
  rw [e]
  unfold Auth.userAuthPacket
  cases (y.say (.received 50 p)).userAuth with
  | false =>
    right; left
    simp only [Bool.not_false, cond_true, Auth.transportPacket]
    rw [if_neg (by decide), if_neg (by decide)]
    simp [Auth.say]
  | true =>
    simp only [Bool.not_true, cond_false]
    cases (y.say (.received 50 p)).task.isSome && !allowedWhileOccupied 50 with
    | true => right; right; simp [Auth.disconnect, Auth.say]
    | false =>
      left
      have ha' : (y.say (.received 50 p)).authenticated = true := ha
      simp only [cond_false]
      rw [if_neg (by decide), if_pos (by decide)]
      simp only [Auth.handleUserauthRequest, ha', cond_true]
      rfl

example : (Auth.run demoAuth {} (demoLogin 8)).stop = false ∧
    (logins (Auth.run demoAuth {} (demoLogin 8)).log).length = 1 := by decide +kernel

/-! ## C30 -/

/-- **C30.** Every login is justified by what happened before it on the same connection. -/
theorem C30_sound (cfg : AuthCfg) (evs : List AuthEv) {a b : List AuthEntry} {l : Login}
    (h : (Auth.run cfg {} evs).log = a ++ .loggedIn l :: b) : Justified cfg.world a l :=
  (before_run (cfg := cfg) evs a _ b h).1

/-- **C30.** USERAUTH_SUCCESS is never sent without a login. -/
theorem C30_success (cfg : AuthCfg) (evs : List AuthEv) {a b : List AuthEntry}
    (h : (Auth.run cfg {} evs).log = a ++ .success :: b) : ∃ l, .loggedIn l ∈ a :=
  before_run (cfg := cfg) evs a _ b h

example : (logins (Auth.run demoAuth {} (demoLogin 8)).log).map (·.method) = [ascii "publickey"] ∧
    (logins (Auth.run demoAuth {} (demoGreeting ++ [demoPassword, .translated (some {})])).log).map (·.method) =
      [ascii "password"] ∧
    (logins (Auth.run demoAuth {} (demoGreeting ++ [demoHostSig, .translated (some {})])).log).map (·.method) =
      [ascii "hostbased"] ∧
    (logins (Auth.run demoAuth {} (demoGreeting ++ [.packet 50 (authRequest (ascii "joe") (ascii "none") []) true, .timer,
      .translated (some { noPassword := some [] })])).log).map (·.method) = [ascii "none"] := by decide +kernel

/-- **C30.** Conversely, a client which presents an authorized key and a valid signature is
logged in (first request on a connection, whether or not it is delayed): as this user and
with the restrictions of the key and the permissions of the account. -/
theorem C30_publickey_complete (cfg : AuthCfg) {acct : Account} {u alg key sig : Bytes} {b : UInt8}
    {home : Option Bytes} {R : Restrictions} (hu : ValidUser u) (hb : b ≠ 0) (hs : sig.length < 2 ^ 32)
    (h1 : alg.length < 2 ^ 32) (h2 : key.length < 2 ^ 32)
    (hfit : (signedBytes cfg.sessionId (authRequest u (ascii "publickey") (b :: (str alg ++ str key)))).length ≤ 65536)
    (hk : cfg.world.validKey key)
    (hv : cfg.world.verify key (signedBytes cfg.sessionId (authRequest u (ascii "publickey") (b :: (str alg ++ str key)))) sig)
    (hok : cfg.translation = true → acct.ok = true ∧ (acct.shell = true → acct.shellValid = true))
    (hpw : cfg.translation = false → cfg.getpwnam u = true)
    (hg : KeyGrants cfg.world ((acctOf cfg acct).bind (·.keys))
      (if ((acctOf cfg acct).map (·.noHomeKeys)).getD false then none else home) key R) (d delay : Bool) :
    ∃ l, .loggedIn l ∈ (Auth.run cfg {} [.encrypted, .packet 5 (str (ascii "ssh-userauth")) d,
        .packet 50 (authRequest u (ascii "publickey") (b :: (str alg ++ (str key ++ str sig)))) delay,
        .timer, .translated (some acct), .home home]).log ∧
      l.user = u ∧ l.method = ascii "publickey" ∧ l.restrictions = R ∧ l.exec = mayExec (acctOf cfg acct) [] ∧
      l.sftp = maySftp (acctOf cfg acct) := by
  have hul : u.length < 2 ^ 32 := by have := hu.2.1; omega
  exact (first_request hul (by decide) (fun y async g1 g2 g3 g4 g5 _ =>
    afterTarpit_publickey hu hb hs h1 h2 hfit hk hv hok hpw hg g1 g2 g3 g4 g5) d delay).1

/-- **C30.** … and so is one of a trusted host … -/
theorem C30_hostbased_complete (cfg : AuthCfg) {acct : Account} {u alg key host cu sig : Bytes}
    {R : Restrictions} (hu : ValidUser u) (hs : sig.length < 2 ^ 32)
    (h1 : alg.length < 2 ^ 32) (h2 : key.length < 2 ^ 32) (h3 : host.length < 2 ^ 32) (h4 : cu.length < 2 ^ 32)
    (hfit : (signedBytes cfg.sessionId (authRequest u (ascii "hostbased")
      (str alg ++ (str key ++ (str host ++ str cu))))).length ≤ 65536)
    (hk : cfg.world.validKey key)
    (hv : cfg.world.verify key (signedBytes cfg.sessionId (authRequest u (ascii "hostbased")
      (str alg ++ (str key ++ (str host ++ str cu))))) sig)
    (hok : cfg.translation = true → acct.ok = true ∧ (acct.shell = true → acct.shellValid = true))
    (hpw : cfg.translation = false → cfg.getpwnam u = true)
    (hg : cfg.world.hostKey key = some R) (d delay : Bool) (home : Option Bytes) :
    ∃ l, .loggedIn l ∈ (Auth.run cfg {} [.encrypted, .packet 5 (str (ascii "ssh-userauth")) d,
        .packet 50 (authRequest u (ascii "hostbased") (str alg ++ (str key ++ (str host ++ (str cu ++ str sig))))) delay,
        .timer, .translated (some acct), .home home]).log ∧
      l.user = u ∧ l.method = ascii "hostbased" ∧ l.restrictions = R ∧ l.exec = mayExec (acctOf cfg acct) [] ∧
      l.sftp = maySftp (acctOf cfg acct) := by
  have hul : u.length < 2 ^ 32 := by have := hu.2.1; omega
  exact (first_request hul (by decide) (fun y async g1 g2 g3 g4 g5 _ =>
    afterTarpit_simple (pw := []) (r := ⟨_, u, _, ascii "hostbased", _⟩) hu rfl (.inr ⟨by simp only; decide, rfl⟩) hok hpw
      (fun y' a _ => won_host h1 h2 h3 h4 hs hfit hk hv hg) g2 g3 g4 g5) d delay).1

/-- **C30.** … and one with the right password; without restrictions. -/
theorem C30_password_complete (cfg : AuthCfg) {acct : Account} {u pw : Bytes} (hu : ValidUser u)
    (hs : pw.length < 2 ^ 32) (hne : pw ≠ []) (ht : cfg.translation = true) (hok : acct.ok = true)
    (hsv : acct.shell = true → acct.shellValid = true) (d delay : Bool) (home : Option Bytes) :
    ∃ l, .loggedIn l ∈ (Auth.run cfg {} [.encrypted, .packet 5 (str (ascii "ssh-userauth")) d,
        .packet 50 (authRequest u (ascii "password") (0 :: str pw)) delay,
        .timer, .translated (some acct), .home home]).log ∧
      l.user = u ∧ l.method = ascii "password" ∧ l.restrictions = {} ∧ l.exec = mayExec (some acct) pw ∧
      l.sftp = maySftp (some acct) := by
  have hul : u.length < 2 ^ 32 := by have := hu.2.1; omega
  have ha : acctOf cfg acct = some acct := by simp [acctOf, ht]
  have := (first_request hul (by decide) (fun y async g1 g2 g3 g4 g5 g6 =>
    afterTarpit_simple (pw := pw) (R := {}) (r := ⟨_, u, _, ascii "password", _⟩) hu rfl (.inl ⟨rfl, ht, hne, parsePassword_spec hs⟩)
      (fun _ => ⟨hok, hsv⟩) (fun h => by rw [ht] at h; simp at h)
      (fun y' a ho => by
        have hpa : (cfg.translation && passwordAccepted acct pw) = true := by
          have : pw.isEmpty = false := by simpa using hne
          simp [ht, passwordAccepted, this]
        rw [hpa]
        unfold Auth.byMethod
        rw [if_neg (by simp only; decide), if_neg (by simp only; decide)]
        have hr : y'.opts.restrictions = {} := by rw [ho, g6]; rfl
        rw [← hr]
        exact won_accept cfg y' _ a) g2 g3 g4 g5) (home := home) d delay).1
  rw [ha] at this
  exact this

example : ValidUser (ascii "joe") := (isValidUsername_iff _).mp (by decide)

/-! ## C31 -/

/-- **C31.** What is signed for public key authentication determines the session, the user,
the service, the method, the algorithm and the key. -/
theorem C31_publickey {sid sid' u u' sv sv' m m' alg alg' key key' : Bytes} {b b' : UInt8}
    (hl : ∀ x ∈ [sid, sid', u, u', sv, sv', m, m', alg, alg', key, key'], x.length < 2 ^ 32)
    (h : signedBytes sid (str u ++ (str sv ++ (str m ++ (b :: (str alg ++ str key))))) =
      signedBytes sid' (str u' ++ (str sv' ++ (str m' ++ (b' :: (str alg' ++ str key')))))) :
    sid = sid' ∧ u = u' ∧ sv = sv' ∧ m = m' ∧ b = b' ∧ alg = alg' ∧ key = key' := by
  simp only [List.mem_cons, List.not_mem_nil, or_false, forall_eq_or_imp, forall_eq] at hl
  obtain ⟨l1, l1', l2, l2', l3, l3', l4, l4', l5, l5', l6, l6'⟩ := hl
  unfold signedBytes at h
  obtain ⟨e1, h⟩ := (readString_reads l1).unique (readString_reads l1') h
  simp only [List.cons.injEq, true_and] at h
  obtain ⟨e2, h⟩ := (readString_reads l2).unique (readString_reads l2') h
  obtain ⟨e3, h⟩ := (readString_reads l3).unique (readString_reads l3') h
  obtain ⟨e4, h⟩ := (readString_reads l4).unique (readString_reads l4') h
  simp only [List.cons.injEq] at h
  obtain ⟨e5, h⟩ := h
  obtain ⟨e6, h⟩ := (readString_reads l5).unique (readString_reads l5') h
  have h : str key ++ [] = str key' ++ [] := by rw [h]
  obtain ⟨e7, _⟩ := (readString_reads l6).unique (readString_reads l6') h
  exact ⟨e1, e2, e3, e4, e5, e6, e7⟩

/-- **C31.** The same for host based authentication: also the host and the user name there. -/
theorem C31_hostbased {sid sid' u u' sv sv' m m' alg alg' key key' host host' cu cu' : Bytes}
    (hl : ∀ x ∈ [sid, sid', u, u', sv, sv', m, m', alg, alg', key, key', host, host', cu, cu'], x.length < 2 ^ 32)
    (h : signedBytes sid (str u ++ (str sv ++ (str m ++ (str alg ++ (str key ++ (str host ++ str cu)))))) =
      signedBytes sid' (str u' ++ (str sv' ++ (str m' ++ (str alg' ++ (str key' ++ (str host' ++ str cu'))))))) :
    sid = sid' ∧ u = u' ∧ sv = sv' ∧ m = m' ∧ alg = alg' ∧ key = key' ∧ host = host' ∧ cu = cu' := by
  simp only [List.mem_cons, List.not_mem_nil, or_false, forall_eq_or_imp, forall_eq] at hl
  obtain ⟨l1, l1', l2, l2', l3, l3', l4, l4', l5, l5', l6, l6', l7, l7', l8, l8'⟩ := hl
  unfold signedBytes at h
  obtain ⟨e1, h⟩ := (readString_reads l1).unique (readString_reads l1') h
  simp only [List.cons.injEq, true_and] at h
  obtain ⟨e2, h⟩ := (readString_reads l2).unique (readString_reads l2') h
  obtain ⟨e3, h⟩ := (readString_reads l3).unique (readString_reads l3') h
  obtain ⟨e4, h⟩ := (readString_reads l4).unique (readString_reads l4') h
  obtain ⟨e5, h⟩ := (readString_reads l5).unique (readString_reads l5') h
  obtain ⟨e6, h⟩ := (readString_reads l6).unique (readString_reads l6') h
  obtain ⟨e7, h⟩ := (readString_reads l7).unique (readString_reads l7') h
  have h : str cu ++ [] = str cu' ++ [] := by rw [h]
  obtain ⟨e8, _⟩ := (readString_reads l8).unique (readString_reads l8') h
  exact ⟨e1, e2, e3, e4, e5, e6, e7, e8⟩

/-- **C31.** A signature for one method is none for the other. -/
theorem C31_methods {sid sid' u u' f f' : Bytes} (h1 : sid.length < 2 ^ 32) (h1' : sid'.length < 2 ^ 32)
    (h2 : u.length < 2 ^ 32) (h2' : u'.length < 2 ^ 32) :
    signedBytes sid (authRequest u (ascii "publickey") f) ≠ signedBytes sid' (authRequest u' (ascii "hostbased") f') := by
  intro h
  unfold signedBytes at h
  obtain ⟨_, h⟩ := (readString_reads h1).unique (readString_reads h1') h
  simp only [List.cons.injEq, true_and] at h
  obtain ⟨_, h⟩ := (readString_reads h2).unique (readString_reads h2') h
  have l3 : (ascii "ssh-connection").length < 2 ^ 32 := by decide
  obtain ⟨_, h⟩ := (readString_reads l3).unique (readString_reads l3) h
  have l4 : (ascii "publickey").length < 2 ^ 32 := by decide
  have l5 : (ascii "hostbased").length < 2 ^ 32 := by decide
  obtain ⟨h, _⟩ := (readString_reads l4).unique (readString_reads l5) h
  exact absurd h (by decide)

/-- **C31.** What the server verifies in a login with a public key is that byte string, of its
own session and of the user who is being logged in. -/
theorem C31_verified (cfg : AuthCfg) (evs : List AuthEv) {a b : List AuthEntry} {l : Login}
    (h : (Auth.run cfg {} evs).log = a ++ .loggedIn l :: b) (hm : l.method = ascii "publickey") :
    ∃ f alg key sig, lastRequest a = some (authRequest l.user l.method (f :: (str alg ++ (str key ++ str sig)))) ∧
      cfg.verify key (signedBytes cfg.sessionId (authRequest l.user l.method (f :: (str alg ++ str key)))) sig = some true := by
  obtain ⟨_, pw, acct, _, ⟨_, _, hp⟩ | ⟨_, hp | hp | hp⟩⟩ := C30_sound cfg evs h
  · rw [hp.1] at hm; exact absurd hm (by decide)
  · obtain ⟨_, f, alg, key, sig, _, h1, _, _, h2⟩ := hp
    exact ⟨f, alg, key, sig, h1, h2⟩
  · rw [hp.1] at hm; exact absurd hm (by decide)
  · exact absurd hm hp.1

example : ∃ l, .loggedIn l ∈ (Auth.run demoAuth {} (demoLogin 8)).log ∧ l.method = ascii "publickey" :=
  ⟨{ user := ascii "joe", method := ascii "publickey", restrictions := {}, exec := true, sftp := true, sftpOnly := false },
    by decide +kernel, rfl⟩

/-! ## C32 -/

/-- **C32.** The restrictions of a login with a public key are those of the key that signed:
as found in the account's list, the global list or the user's file, whichever is the first
to contain it. -/
theorem C32_restrictions (cfg : AuthCfg) (evs : List AuthEv) {a b : List AuthEntry} {l : Login}
    (h : (Auth.run cfg {} evs).log = a ++ .loggedIn l :: b) (hm : l.method = ascii "publickey") :
    ∃ acct f alg key sig, KnownAccount cfg.world a l.user [] acct ∧
      lastRequest a = some (authRequest l.user l.method (f :: (str alg ++ (str key ++ str sig)))) ∧
      KeyGrants cfg.world (acct.bind (·.keys)) (if (acct.map (·.noHomeKeys)).getD false then none else homeText a) key
        l.restrictions := by
  obtain ⟨_, pw, acct, hk, ⟨_, _, hp⟩ | ⟨rfl, hp | hp | hp⟩⟩ := C30_sound cfg evs h
  · rw [hp.1] at hm; exact absurd hm (by decide)
  · obtain ⟨_, f, alg, key, sig, _, h1, h2, _, _⟩ := hp
    exact ⟨acct, f, alg, key, sig, hk, h1, h2⟩
  · rw [hp.1] at hm; exact absurd hm (by decide)
  · exact absurd hm hp.1

/-- **C32.** A key has at most one set of restrictions. -/
theorem C32_unique (w : AuthWorld) {text home : Option Bytes} {key : Bytes} {r r' : Restrictions}
    (h : KeyGrants w text home key r) (h' : KeyGrants w text home key r') : r = r' := by
  have ht : ∀ {d : Bytes → Option Bytes} {t : Bytes} {r r' : Restrictions}, TextGrants d t key r → TextGrants d t key r' → r = r' := by
    intro d t r r' g g'
    obtain ⟨o, h1, rfl⟩ := textGrants_some g
    obtain ⟨o', h1', rfl⟩ := textGrants_some g'
    rw [h1] at h1'
    simp only [Option.some.injEq] at h1'
    rw [h1']
  have hf : ∀ {d : Bytes → Option Bytes} {t : Bytes} {r r' : Restrictions}, FileGrants d t key r → FileGrants d t key r' → r = r' := by
    intro d t r r' g g'
    obtain ⟨o, h1, rfl⟩ := fileGrants_some g
    obtain ⟨o', h1', rfl⟩ := fileGrants_some g'
    rw [h1] at h1'
    simp only [Option.some.injEq] at h1'
    rw [h1']
  cases h with
  | text e g =>
    cases h' with
    | text e' g' => rw [e] at e'; simp only [Option.some.injEq] at e'; subst e'; exact ht g g'
    | global n _ => exact absurd g (n _ e _)
    | home n _ _ _ => exact absurd g (n _ e _)
  | global n e =>
    cases h' with
    | text e' g' => exact absurd g' (n _ e' _)
    | global _ e' => rw [e] at e'; simpa using e'
    | home _ e' _ _ => rw [e] at e'; simp at e'
  | home n e eh g =>
    cases h' with
    | text e' g' => exact absurd g' (n _ e' _)
    | global _ e' => rw [e] at e'; simp at e'
    | home _ _ eh' g' => rw [eh] at eh'; simp only [Option.some.injEq] at eh'; subst eh'; exact hf g g'

/-- **C32.** What is enforced later are these restrictions, or the ones they were tightened
to later; and the permissions are those of the login. -/
theorem C32_enforced (cfg : AuthCfg) (evs : List AuthEv) {l : Login} (h : .loggedIn l ∈ (Auth.run cfg {} evs).log) :
    inEffect (Auth.run cfg {} evs).log = some (Auth.run cfg {} evs).opts.restrictions ∧
    (Auth.run cfg {} evs).allowExec = l.exec ∧ (Auth.run cfg {} evs).allowSftp = l.sftp ∧
    (Auth.run cfg {} evs).sftpOnly = l.sftpOnly ∧ (Auth.run cfg {} evs).username = l.user := by
  rcases inv_run (cfg := cfg) evs with ⟨h1, _⟩ | h1
  · exact absurd h (h1.noLogin l)
  · obtain ⟨l', g1, g2, g3, g4, g5⟩ := h1.perms
    have : l' = l := by
      obtain ⟨a, b, hab⟩ := List.append_of_mem h
      obtain ⟨_, _, hn⟩ := C29_login cfg evs hab
      rw [hab, List.mem_append, List.mem_cons] at g1
      rcases g1 with g1 | g1 | g1
      · exact absurd (List.mem_append_left _ g1) (hn l')
      · simpa using g1
      · exact absurd (List.mem_append_right _ g1) (hn l')
    subst this
    exact ⟨h1.eff, g2, g3, g4, g5⟩

/-- Options of other keys which were tried before have no effect. -/
example : (logins (Auth.run demoAuth {} (demoGreeting ++ [demoKeyQuery 7, .translated (some {}), demoKeySig 8])).log).map
      (·.restrictions.noForwarding) = [false] ∧
    (logins (Auth.run demoAuth {} (demoLogin 7)).log).map (·.restrictions.noForwarding) = [true] := by decide +kernel

/-! ## C33 -/

/-- **C33** is false: the restrictions of a key which was merely asked about remain in effect
for a login with a password. -/
theorem C33_violated : ∃ (cfg : AuthCfg) (before evs : List AuthEv) (l l' : Login),
    logins (Auth.run cfg {} (demoGreeting ++ evs)).log = [l] ∧
    logins (Auth.run cfg {} (demoGreeting ++ before)).log = [] ∧
    logins (Auth.run cfg {} (demoGreeting ++ before ++ evs)).log = [l'] ∧
    l.restrictions ≠ l'.restrictions :=
  ⟨demoAuth, [demoKeyQuery 7, .translated (some {})], [demoPassword, .translated (some {})],
    { user := ascii "joe", method := ascii "password", restrictions := {}, exec := true, sftp := true, sftpOnly := false },
    { user := ascii "joe", method := ascii "password", restrictions := { noForwarding := true }, exec := true,
      sftp := true, sftpOnly := false }, by decide +kernel⟩

/-- **C33** is false: a wrong password makes later logins with a key impossible, because
the negative answer is remembered. -/
theorem C33_failed_answer_violated : ∃ (cfg : AuthCfg) (before evs : List AuthEv) (l : Login),
    logins (Auth.run cfg {} (demoGreeting ++ evs)).log = [l] ∧
    logins (Auth.run cfg {} (demoGreeting ++ before)).log = [] ∧
    logins (Auth.run cfg {} (demoGreeting ++ before ++ evs)).log = [] :=
  ⟨demoAuth, [demoPassword, .translated (some { ok := false }), .timer], [demoKeySig 8, .translated (some {})],
    { user := ascii "joe", method := ascii "publickey", restrictions := {}, exec := true, sftp := true, sftpOnly := false },
    by decide +kernel⟩

/-- **C33**, the part that holds: earlier attempts never give more permissions than the
account of the successful login has; and the first attempt gives exactly these, without any
restrictions unless a key is used. -/
theorem C33_partial (cfg : AuthCfg) (evs : List AuthEv) {a b : List AuthEntry} {l : Login}
    (h : (Auth.run cfg {} evs).log = a ++ .loggedIn l :: b) {pw : Bytes} {acct : Option Account}
    (hk : KnownAccount cfg.world a l.user pw acct) :
    (l.exec = true → mayExec acct pw = true) ∧ (l.sftp = true → maySftp acct = true) ∧
    (isSftpOnly acct pw = true → l.sftpOnly = true) ∧
    (attempts a ≤ 1 →
      l.exec = mayExec acct pw ∧ l.sftp = maySftp acct ∧ l.sftpOnly = isSftpOnly acct pw ∧
      (l.method ≠ ascii "publickey" → l.method ≠ ascii "hostbased" → l.restrictions = {})) := by
  obtain ⟨_, h1, _, _, _, h2⟩ := before_run (cfg := cfg) evs a _ b h
  obtain ⟨g1, g2, g3, g4⟩ := h1 pw acct hk
  exact ⟨g1, g2, g3, fun ha => ⟨(g4 ha).1, (g4 ha).2.1, (g4 ha).2.2, h2 ha⟩⟩

example : ∃ a l, (Auth.run demoAuth {} (demoLogin 8)).log = a ++ [.loggedIn l, .success] ∧
    KnownAccount demoAuth.world a l.user [] (some {}) := by
  refine ⟨(Auth.run demoAuth {} (demoLogin 8)).log.take 5,
    { user := ascii "joe", method := ascii "publickey", restrictions := {}, exec := true, sftp := true, sftpOnly := false },
    by decide +kernel, .inl ⟨rfl, {}, rfl, by decide +kernel, rfl⟩⟩

/-! ## C34, C35 -/

/-- **C34.** On a connection: whenever the restrictions change after the login, they become
tighter. -/
theorem C34_connection (cfg : AuthCfg) (evs : List AuthEv) {a b : List AuthEntry} {r : Restrictions}
    (h : (Auth.run cfg {} evs).log = a ++ .restricted r :: b) :
    ∃ r0, inEffect a = some r0 ∧ r0.le r :=
  (before_run (cfg := cfg) evs a _ b h).2

/-- **C34.** … so they are never looser than those of the login. -/
theorem C34_never_looser (cfg : AuthCfg) (evs : List AuthEv) {l : Login} (h : .loggedIn l ∈ (Auth.run cfg {} evs).log) :
    l.restrictions.le (Auth.run cfg {} evs).opts.restrictions := by
  obtain ⟨he, _⟩ := C32_enforced cfg evs h
  obtain ⟨a, b, hab⟩ := List.append_of_mem h
  have key : ∀ b2 b1, b = b1 ++ b2 → ∀ r, inEffect (a ++ .loggedIn l :: b1) = some r →
      l.restrictions.le r → ∀ r', inEffect (a ++ .loggedIn l :: (b1 ++ b2)) = some r' → l.restrictions.le r' := by
    intro b2
    induction b2 with
    | nil => intro b1 _ r hr hle r' hr'; rw [List.append_nil, hr] at hr'; simp at hr'; rw [← hr']; exact hle
    | cons e b2 ih =>
      intro b1 hb r hr hle r' hr'
      have hn := inEffect_snoc (a ++ .loggedIn l :: b1) e
      rw [show (a ++ .loggedIn l :: b1) ++ [e] = a ++ .loggedIn l :: (b1 ++ [e]) by simp] at hn
      have hb' : b = (b1 ++ [e]) ++ b2 := by rw [hb]; simp
      have hr'' : inEffect (a ++ .loggedIn l :: ((b1 ++ [e]) ++ b2)) = some r' := by
        rw [← hr']; simp
      have hpos : (Auth.run cfg {} evs).log = (a ++ .loggedIn l :: b1) ++ e :: b2 := by rw [hab, hb]; simp
      have other : inEffect (a ++ .loggedIn l :: (b1 ++ [e])) = inEffect (a ++ .loggedIn l :: b1) → l.restrictions.le r' := by
        intro hn
        exact ih _ hb' r (by rw [hn, hr]) hle r' hr''
      cases e with
      | loggedIn l' =>
        obtain ⟨_, _, hno⟩ := C29_login cfg evs hab
        exact absurd (by rw [hb]; simp) (hno l')
      | restricted r1 =>
        obtain ⟨r0, g1, g2⟩ := C34_connection cfg evs hpos
        rw [hr] at g1
        simp only [Option.some.injEq] at g1
        subst g1
        exact ih _ hb' r1 hn (Restrictions.le_trans hle g2) r' hr''
      | _ => exact other hn
  refine key b [] rfl l.restrictions ?_ (Restrictions.le_refl _) _ (by rw [← he, hab]; rfl)
  rw [show a ++ .loggedIn l :: [] = a ++ [.loggedIn l] from rfl, inEffect_snoc]

/-- A proxy sends additional restrictions. -/
def demoOptions : AuthEv :=
  .packet 80 (str AUTHORIZED_KEY_OPTIONS_REQUEST ++ (0 :: (str (ascii "no-pty") ++ str []))) false

example : .restricted { noTerminal := true } ∈
    (Auth.run demoAuth {} (demoGreeting ++ [demoHostSig, .translated (some {}), demoOptions])).log := by decide +kernel

/-- **C35.** The target is told about the restrictions, as they are in effect, before it is sent any
message of the client. -/
theorem C35_first (cfg : AuthCfg) (evs : List AuthEv) {a b : List AuthEntry} {m : UInt8} {p : Bytes}
    (h : (Auth.run cfg {} evs).log = a ++ .toTarget m p :: b) :
    ∃ r message, .requestToTarget message ∈ a ∧ CarriesRestrictions message r ∧ inEffect a = some r :=
  (before_run (cfg := cfg) evs a _ b h).2

/-- A server which connects its clients to other servers. -/
def demoProxy : AuthCfg := { demoAuth with proxyTo := fun _ _ => .target }

def demoProxied : List AuthEv := demoLogin 7 ++ [.connected true, .targetSuccess]

example : (Auth.run demoProxy {} (demoProxied ++ [demoOpen "session" []])).log.drop 6 =
    [.requestToTarget (80 :: (str AUTHORIZED_KEY_OPTIONS_REQUEST ++ (0 :: (str (ascii "no-port-forwarding") ++ str [])))), .success,
     .received 90 (str (ascii "session") ++ (u32 0 ++ (u32 1000 ++ u32 1000))),
     .toTarget 90 (str (ascii "session") ++ (u32 0 ++ (u32 1000 ++ u32 1000)))] := by decide +kernel

/-! ## C36 -/

/-- **C36.** While a connection is being forwarded, the messages sent to the target are the
messages of the connection protocol received from the client, unchanged and in the same order,
and vice versa. When the connection to the target ends, what was forwarded is a prefix. -/
theorem C36_forward (cfg : AuthCfg) (evs evs' : List AuthEv) (hp : (Auth.run cfg {} evs).proxied = true) :
    ∃ d, (Auth.run cfg {} (evs ++ evs')).log = (Auth.run cfg {} evs).log ++ d ∧
      sentToTarget d <+: fromClient d ∧ sentToClient d = fromTarget d ∧
      ((Auth.run cfg {} (evs ++ evs')).proxied = true → sentToTarget d = fromClient d) := by
  have e : Auth.run cfg {} (evs ++ evs') = Auth.run cfg (Auth.run cfg {} evs) evs' := by
    simp [Auth.run]
  have hpost : AuthPost cfg (Auth.run cfg {} evs) := by
    rcases inv_run (cfg := cfg) evs with ⟨h1, _⟩ | h1
    · rw [h1.prox] at hp; simp at hp
    · exact h1
  obtain ⟨d, h1, h2, h3, h4, _⟩ := fwd_run hpost hp evs'
  rw [e]
  exact ⟨d, h1, h2, h3, h4⟩

/-- **C36.** Forwarding ends only if the target ends it: an authentication attempt, key exchange
or any other message of the client does not. -/
theorem C36_stays (cfg : AuthCfg) (evs : List AuthEv) (hp : (Auth.run cfg {} evs).proxied = true) {ev : AuthEv}
    (he : ev ≠ .targetDisconnecting) : ((Auth.run cfg {} evs).step cfg ev).proxied = true := by
  have hpost : AuthPost cfg (Auth.run cfg {} evs) := by
    rcases inv_run (cfg := cfg) evs with ⟨h1, _⟩ | h1
    · rw [h1.prox] at hp; simp at hp
    · exact h1
  generalize Auth.run cfg {} evs = y at hp hpost
  unfold Auth.step
  have htask : ∀ ev, (match y.task with | none => y | some t => y.resume cfg t ev).proxied = true := by
    intro ev
    rcases hpost.task with ht | ht
    · rw [ht]; exact hp
    · rw [ht]; exact (fwd_resume rfl ev).prox.trans hp
  cases y.stop with
  | true => exact hp
  | false =>
    simp only [cond_false]
    cases ev with
    | targetDisconnecting => exact absurd rfl he
    | encrypted => cases y.encrypted <;> exact hp
    | packet m p d =>
      have hc : y.channels = false := by
        cases hc : y.channels with
        | false => rfl
        | true => rw [(hpost.chan1 hc).2.1] at hp; simp at hp
      unfold Auth.packet Auth.laterHandlers
      have hc' : (y.say (.received m p)).channels = false := hc
      simp only [hc', Bool.false_and, cond_false]
      cases (y.say (.received m p)).proxied && shouldProxy m with
      | true => exact hp
      | false => exact (quiet_userAuth (y := y.say (.received m p)) hpost.auth m p d).prox.trans hp
    | targetSuccess =>
      cases y.outgoing && !y.targetDone with
      | false => exact hp
      | true =>
        simp only [cond_true]
        unfold Auth.targetReady
        split
        · exact hp
        · rfl
    | targetPacket m p =>
      cases hq : y.proxied with
      | false => rw [hq] at hp; simp at hp
      | true =>
        simp only [cond_true]
        cases shouldProxy m with
        | true => rfl
        | false => exact hp
    | targetGone => cases y.outgoing <;> exact hp
    | authTimeout => cases y.authenticated <;> exact hp
    | closed => exact hp
    | timer => exact htask _
    | translated a => exact htask _
    | home t => exact htask _
    | connected ok => exact htask _

example : (Auth.run demoProxy {} demoProxied).proxied = true ∧
    (Auth.run demoProxy {} (demoProxied ++ [demoOpen "session" [], .packet 50 [] false, .targetPacket 91 [1],
      .targetPacket 2 [], .packet 94 [2] false])).proxied = true := by decide +kernel

/-- **C36.** What is forwarded are messages 80 to 82 and 90 to 100 (RFC 4254), to either side. -/
theorem C36_only_connection_messages (m : UInt8) :
    shouldProxy m = true ↔ (80 ≤ m ∧ m ≤ 82) ∨ (90 ≤ m ∧ m ≤ 100) := by
  rw [shouldProxy_iff]
  simp only [IsConnectionMessage, List.mem_cons, List.not_mem_nil, or_false, UInt8.le_iff_toNat_le, ← UInt8.toNat_inj]
  simp only [UInt8.reduceToNat]
  omega

/-! ## C39 -/

/-- **C39** is false: `no-port-forwarding` does not prevent connections to local sockets. -/
theorem C39_violated : ∃ (cfg : AuthCfg) (evs : List AuthEv) (r : Restrictions) (path : Bytes),
    inEffect (Auth.run cfg {} evs).log = some r ∧ r.noForwarding = true ∧
    .connectLocal path ∈ (Auth.run cfg {} evs).log :=
  ⟨demoAuth, demoLogin 7 ++ [demoOpen "direct-streamlocal@openssh.com" (str (ascii "/run/x.sock") ++ (str [] ++ u32 0))],
    { noForwarding := true }, ascii "/run/x.sock", by decide +kernel⟩

/-- **C39**, the part that holds: TCP connections are made, and ports are bound, only for
clients which may execute programs, whose key (or proxy) does not forbid it, and whose account
does not have its own network. -/
theorem C39_tcp_partial (cfg : AuthCfg) (evs : List AuthEv) {a b : List AuthEntry} {host : Bytes} {port : Nat} {e : AuthEntry}
    (he : e = .connectTcp host port ∨ e = .bindTcp host port) (h : (Auth.run cfg {} evs).log = a ++ e :: b) :
    (∃ l, .loggedIn l ∈ a ∧ l.exec = true) ∧ (∃ r, inEffect a = some r ∧ r.noForwarding = false) ∧
    ∀ u p acct, lastAccount a = some (u, p, acct) → acct.shell = true → acct.ownNetwork = false := by
  have h1 := before_run (cfg := cfg) evs a _ b h
  rcases he with rfl | rfl <;> exact h1.2

/-- **C39**, … and connections to local sockets only for clients which may execute programs. -/
theorem C39_local_partial (cfg : AuthCfg) (evs : List AuthEv) {a b : List AuthEntry} {path : Bytes}
    (h : (Auth.run cfg {} evs).log = a ++ .connectLocal path :: b) : ∃ l, .loggedIn l ∈ a ∧ l.exec = true :=
  (before_run (cfg := cfg) evs a _ b h).2

example : .connectTcp [1] 22 ∈ (Auth.run demoAuth {} (demoLogin 8 ++ [demoDirectTcp])).log ∧
    .openRefused 1 ∈ (Auth.run demoAuth {} (demoLogin 7 ++ [demoDirectTcp])).log ∧
    .openRefused 1 ∈ (Auth.run demoAuth {} (demoGreeting ++ [demoKeySig 8, .translated (some { ownNetwork := true }),
      demoDirectTcp])).log ∧
    .openRefused 1 ∈ (Auth.run demoAuth {} (demoGreeting ++ [demoKeySig 8, .translated (some { shell := false, sftp := true }),
      demoDirectTcp])).log := by decide +kernel

/-! ## C57 -/

/-- **C57.** After "no more sessions" no session is opened. -/
theorem C57_no_more (cfg : AuthCfg) (evs : List AuthEv) {a b : List AuthEntry}
    (h : (Auth.run cfg {} evs).log = a ++ .noMoreSessions :: b) : .openSession ∉ b := by
  intro hm
  obtain ⟨b1, b2, rfl⟩ := List.append_of_mem hm
  have := before_run (cfg := cfg) evs (a ++ .noMoreSessions :: b1) .openSession b2 (by rw [h]; simp)
  exact this.2 (by simp)

/-- **C57.** The attempt ends the connection. -/
theorem C57_disconnect (cfg : AuthCfg) (evs : List AuthEv) {y : Auth} (hy : y = Auth.run cfg {} evs) (hs : y.stop = false)
    (hn : .noMoreSessions ∈ y.log) {sender window size : Nat} (h1 : sender < 2 ^ 32) (h2 : window < 2 ^ 32)
    (h3 : size < 2 ^ 32) (data : Bytes) (d : Bool) :
    let p := str (ascii "session") ++ (u32 sender ++ (u32 window ++ (u32 size ++ data)))
    y.step cfg (.packet 90 p d) = { y with stop := true, log := y.log ++ [.received 90 p, .disconnected 2] } := by
  intro p
  subst hy
  obtain ⟨hc, hnm⟩ : (Auth.run cfg {} evs).channels = true ∧ (Auth.run cfg {} evs).noMoreSessions = true ∧
      (Auth.run cfg {} evs).proxied = false := by
    rcases inv_run (cfg := cfg) evs with ⟨g, _⟩ | g
    · exact absurd hn (no_noMoreSessions g)
    · exact ⟨(g.nms hn).2, (g.nms hn).1, (g.chan1 (g.nms hn).2).2.1⟩
  generalize Auth.run cfg {} evs = y at hs hnm hc
  have hpc : parseChannelOpen.parse p = some ⟨ascii "session", sender, window, size, data⟩ := by
    have l : (ascii "session").length < 2 ^ 32 := by decide
    simp only [Parser.parse, parseChannelOpen, bind_apply, p, readString_reads l _, readU32_reads h1 _, readU32_reads h2 _,
      readU32_reads h3 _, getRest, pure_apply]
    rfl
  have hc' : (y.say (.received 90 p)).channels = true := hc
  have hp' : (y.say (.received 90 p)).proxied = false := hnm.2
  have hn' : (y.say (.received 90 p)).noMoreSessions = true := hnm.1
  simp only [Auth.step, hs, cond_false, Auth.packet, Auth.laterHandlers, hc', hp', Bool.false_and]
  rw [show isChannelMessage 90 = true by decide]
  simp only [Bool.and_self, cond_true, Auth.channelPacket]
  rw [if_pos trivial, hpc]
  simp only [Auth.createChannel]
  rw [if_pos trivial, hn', cond_true]
  simp [Auth.disconnect, Auth.say]

def demoNoMore : AuthEv := .packet 80 (str (ascii "no-more-sessions@openssh.com") ++ [0]) false

example : .noMoreSessions ∈ (Auth.run demoAuth {} (demoLogin 8 ++ [demoOpen "session" [], demoNoMore])).log ∧
    (Auth.run demoAuth {} (demoLogin 8 ++ [demoOpen "session" [], demoNoMore])).stop = false := by decide +kernel

end Lukko
