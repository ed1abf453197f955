import Verif.Proof.AuthFwd
/-
  A client with a valid proof is logged in.
-/
namespace Lukko
open Model Spec

theorem grants_some {decode : Bytes → Option Bytes} {line key : Bytes} {r : Restrictions} (h : Grants decode line key r) :
    ∃ o, lineContains decode line key = some o ∧ o.restrictions = r := by
  obtain ⟨b64, os, g1, g2, g3⟩ := h
  have hs := setAll_spec os {}
  have g3' : applyOptions ({} : KeyOptions).restrictions os = some r := g3
  rw [g3'] at hs
  simp only [Option.map_eq_some_iff] at hs
  obtain ⟨o', _, rfl⟩ := hs
  exact ⟨o', (C37_line (decode := decode) line key o').mpr ⟨b64, os, g1, g2, g3⟩, rfl⟩

theorem grantedIn_some {decode : Bytes → Option Bytes} {ls : List Bytes} {key : Bytes} {r : Restrictions}
    (h : GrantedIn decode ls key r) : ∃ o, linesContain decode ls key = some o ∧ o.restrictions = r := by
  obtain ⟨pre, line, post, h1, h2, h3⟩ := h
  obtain ⟨o, g1, g2⟩ := grants_some h2
  refine ⟨o, ?_, g2⟩
  unfold linesContain
  rw [findSome_iff]
  refine ⟨pre, line, post, h1, g1, fun l hl => ?_⟩
  cases hc : lineContains decode l key with
  | none => rfl
  | some o' => exact absurd ((C37_line _ _ _).mp hc) (h3 l hl _)

theorem textGrants_some {decode : Bytes → Option Bytes} {text key : Bytes} {r : Restrictions}
    (h : TextGrants decode text key r) : ∃ o, textContains decode text key = some o ∧ o.restrictions = r := by
  obtain ⟨ls, h1, h2⟩ := h
  rw [← linesOf_unique (splitLines_spec text) h1] at h2
  exact grantedIn_some h2

theorem fileGrants_some {decode : Bytes → Option Bytes} {text key : Bytes} {r : Restrictions}
    (h : FileGrants decode text key r) : ∃ o, fileContains decode text key = some o ∧ o.restrictions = r := by
  obtain ⟨ls, h1, h2⟩ := h
  rw [← linesOf_unique (splitLines_spec text) h1] at h2
  exact grantedIn_some (ls := (splitLines text).map cLine) h2

/-- The key is found in one of the places. -/
theorem keyGrants_find {cfg : AuthCfg} {y : Auth} {home : Option Bytes} {key : Bytes} {r : Restrictions}
    (h : KeyGrants cfg.world (y.translation.bind (·.account.keys)) home key r) :
    (∃ o, y.findKey cfg key = some o ∧ o.restrictions = r) ∨
    (y.findKey cfg key = none ∧ ∃ t o, home = some t ∧ fileContains cfg.decode t key = some o ∧ o.restrictions = r) := by
  have hno : (∀ t, y.translation.bind (·.account.keys) = some t → ∀ r, ¬ TextGrants cfg.world.decode t key r) →
      ((y.translation.bind (·.account.keys)).bind fun t => textContains cfg.decode t key) = none := by
    intro hn
    cases ht : y.translation.bind (·.account.keys) with
    | none => rfl
    | some t =>
      simp only [Option.bind_some]
      cases hc : textContains cfg.decode t key with
      | none => rfl
      | some o => exact absurd (textContains_some hc) (hn t ht _)
  cases h with
  | text h1 h2 =>
    obtain ⟨o, g1, g2⟩ := textGrants_some h2
    refine .inl ⟨o, ?_, g2⟩
    unfold Auth.findKey
    rw [h1]
    have g1 : textContains cfg.decode _ key = some o := g1
    simp [g1]
  | global h1 h2 =>
    have h2 : (cfg.globalKeys.find key).map KeyOptions.restrictions = some r := h2
    rw [Option.map_eq_some_iff] at h2
    obtain ⟨o, g1, g2⟩ := h2
    refine .inl ⟨o, ?_, g2⟩
    unfold Auth.findKey
    rw [hno h1, g1]; rfl
  | @home t r h1 h2 h3 h4 =>
    have h2 : (cfg.globalKeys.find key).map KeyOptions.restrictions = none := h2
    rw [Option.map_eq_none_iff] at h2
    obtain ⟨o, g1, g2⟩ := fileGrants_some h4
    refine .inr ⟨?_, t, o, h3, g1, g2⟩
    unfold Auth.findKey
    rw [hno h1, h2]; rfl

/-! ### Parsing -/

theorem parseAuthReq_spec {u m : Bytes} (hu : u.length < 2 ^ 32) (hm : m.length < 2 ^ 32) (rest : Bytes) :
    parseAuthReq (authRequest u m rest) =
      some { payload := authRequest u m rest, user := u, service := ascii "ssh-connection", method := m, rest := rest } := by
  unfold parseAuthReq authRequest
  have h2 : (ascii "ssh-connection").length < 2 ^ 32 := by decide
  simp only [bind_apply, readString_reads hu _, readString_reads h2 _, readString_reads hm _, getRest, pure_apply]

theorem parseKeyReq_spec {alg key : Bytes} (h1 : alg.length < 2 ^ 32) (h2 : key.length < 2 ^ 32) (b : UInt8) (rest : Bytes) :
    parseKeyReq (b :: (str alg ++ (str key ++ rest))) =
      some ({ withSig := b != 0, alg := alg, blob := key, rest := rest }, rest) := by
  have hb : ∀ s, readBool (b :: s) = some (b != 0, s) := by
    intro s; simp [readBool, readN]
  unfold parseKeyReq
  simp only [bind_apply, hb, readString_reads h1 _, readString_reads h2 _, getRest, pure_apply]

theorem parseSignature_spec {sig : Bytes} (h : sig.length < 2 ^ 32) : parseSignature (str sig) = some (sig, []) := by
  have := readString_reads h []
  rw [List.append_nil] at this
  unfold parseSignature
  simp only [bind_apply, this, expectEnd, pure_apply]
  rfl

theorem parseHostReq_spec {alg key host user sig : Bytes} (h1 : alg.length < 2 ^ 32) (h2 : key.length < 2 ^ 32)
    (h3 : host.length < 2 ^ 32) (h4 : user.length < 2 ^ 32) (h5 : sig.length < 2 ^ 32) :
    parseHostReq (str alg ++ (str key ++ (str host ++ (str user ++ str sig)))) =
      some ({ alg := alg, blob := key, host := host, user := user, rest := str sig, sig := sig }, []) := by
  have := readString_reads h5 []
  rw [List.append_nil] at this
  unfold parseHostReq
  simp only [bind_apply, readString_reads h1 _, readString_reads h2 _, readString_reads h3 _, readString_reads h4 _,
    getRest, this, expectEnd, pure_apply]
  rfl

theorem parsePassword_spec {p : Bytes} (h : p.length < 2 ^ 32) :
    parsePassword (0 :: str p) = some ((false, p), []) := by
  have hb : ∀ s, readBool (0 :: s) = some (false, s) := by
    intro s; simp [readBool, readN]
  have := readString_reads h []
  rw [List.append_nil] at this
  unfold parsePassword
  simp only [bind_apply, hb, this, expectEnd, pure_apply]
  rfl

theorem signedData_fits {sid part : Bytes} (h : (signedBytes sid part).length ≤ BUFFER_SIZE) :
    signedData sid part = .ok (signedBytes sid part) := by
  have hl : (signedBytes sid part).length = 4 + sid.length + 1 + part.length := by
    simp [signedBytes, str]; omega
  have e1 : Ser.empty.writeString sid = .ok ⟨str sid⟩ := by
    simp only [Ser.writeString, Ser.writeU32, bind, Except.bind]
    rw [writeN_fits (by simp [Ser.empty, BUFFER_SIZE])]
    simp only
    rw [writeN_fits (by simp [Ser.empty]; omega)]
    simp [Ser.empty, str, u32Bytes_eq]
  simp only [signedData, bind, Except.bind, e1, Ser.writeU8]
  rw [writeN_fits (by simp [str]; omega)]
  simp only
  rw [writeN_fits (by simp [str]; omega)]
  simp [signedBytes, pure, Except.pure]

/-! ### Logging in -/

/-- There was a login, and nothing remains to be done. -/
def Won (y : Auth) (user method : Bytes) (r : Restrictions) (ex sf : Bool) : Prop :=
  (∃ l, .loggedIn l ∈ y.log ∧ l.user = user ∧ l.method = method ∧ l.restrictions = r ∧ l.exec = ex ∧ l.sftp = sf) ∧
  (y.stop = true ∨ y.task = none ∨ y.task = some .connect)

theorem won_accept (cfg : AuthCfg) (y : Auth) (r : AuthReq) (async : Bool) :
    Won (y.accept cfg r async) r.user r.method y.opts.restrictions y.allowExec y.allowSftp := by
  unfold Auth.accept
  simp only
  split
  · exact ⟨⟨_, by simp [Auth.close]; exact .inr rfl, rfl, rfl, rfl, rfl, rfl⟩, .inl rfl⟩
  · exact ⟨⟨_, by simp; exact .inr rfl, rfl, rfl, rfl, rfl, rfl⟩, .inr (.inr rfl)⟩
  · exact ⟨⟨_, by simp [Auth.complete]; exact .inr rfl, rfl, rfl, rfl, rfl, rfl⟩, .inr (.inl rfl)⟩

/-- Events which are answers to something the server does. -/
def isAnswer : AuthEv → Bool
  | .timer | .translated _ | .home _ => true
  | _ => false

theorem won_step {cfg : AuthCfg} {y : Auth} {u m r ex sf} (h : Won y u m r ex sf) {ev : AuthEv} (he : isAnswer ev = true) :
    Won (y.step cfg ev) u m r ex sf := by
  have : y.step cfg ev = y := by
    unfold Auth.step
    cases hs : y.stop with
    | true => rfl
    | false =>
      simp only [cond_false]
      have ht : y.task = none ∨ y.task = some .connect := by
        rcases h.2 with h | h
        · rw [hs] at h; simp at h
        · exact h
      cases ev <;> simp only [isAnswer] at he <;> first | (simp at he; done) | (rcases ht with ht | ht <;> rw [ht] <;> rfl)
  rw [this]; exact h

theorem won_keyAccepted {cfg : AuthCfg} {y : Auth} {u alg key sig : Bytes} {b : UInt8} {async : Bool} (hb : b ≠ 0)
    (hs : sig.length < 2 ^ 32)
    (hfit : (signedBytes cfg.sessionId (authRequest u (ascii "publickey") (b :: (str alg ++ str key)))).length ≤ BUFFER_SIZE)
    (hk : cfg.parseKey key = true)
    (hv : cfg.verify key (signedBytes cfg.sessionId (authRequest u (ascii "publickey") (b :: (str alg ++ str key)))) sig =
      some true) :
    Won (y.keyAccepted cfg
      { payload := authRequest u (ascii "publickey") (b :: (str alg ++ (str key ++ str sig))), user := u,
        service := ascii "ssh-connection", method := ascii "publickey", rest := b :: (str alg ++ (str key ++ str sig)) }
      { withSig := b != 0, alg := alg, blob := key, rest := str sig } async)
      u (ascii "publickey") y.opts.restrictions y.allowExec y.allowSftp := by
  have hb' : (b != 0) = true := by simpa using hb
  have hc : consumed (authRequest u (ascii "publickey") (b :: (str alg ++ (str key ++ str sig)))) (str sig) =
      authRequest u (ascii "publickey") (b :: (str alg ++ str key)) := by
    have : authRequest u (ascii "publickey") (b :: (str alg ++ (str key ++ str sig))) =
      authRequest u (ascii "publickey") (b :: (str alg ++ str key)) ++ str sig := by simp [authRequest]
    rw [this, consumed_append]
  unfold Auth.keyAccepted
  simp only [hk, hb', Bool.not_true, cond_false, parseSignature_spec hs, Auth.checkKeySignature, hc, signedData_fits hfit, hv]
  exact won_accept cfg y _ async

/-- The state in which the first authentication request arrives. -/
def greeted : Auth :=
  { encrypted := true, userAuth := true, haveService := true,
    log := [.encrypted, .received 5 (str (ascii "ssh-userauth")), .serviceAccepted (ascii "ssh-userauth")] }

theorem greeted_eq (cfg : AuthCfg) (d : Bool) :
    Auth.run cfg {} [.encrypted, .packet 5 (str (ascii "ssh-userauth")) d] = greeted := by
  rfl

/-- What leads to a login, from the end of the tarpit on. -/
def WinsFrom (cfg : AuthCfg) (y : Auth) (acct : Account) (home : Option Bytes) (u m : Bytes) (R : Restrictions)
    (ex sf : Bool) : Prop :=
  Won (Auth.run cfg y [.timer, .translated (some acct), .home home]) u m R ex sf ∧
  Won (Auth.run cfg y [.translated (some acct), .home home]) u m R ex sf

theorem wins_of_won {cfg : AuthCfg} {y : Auth} {acct home u m R ex sf} (h : Won y u m R ex sf) :
    WinsFrom cfg y acct home u m R ex sf := by
  refine ⟨?_, ?_⟩ <;> simp only [Auth.run, List.foldl_cons, List.foldl_nil]
  · exact won_step (won_step (won_step h rfl) rfl) rfl
  · exact won_step (won_step h rfl) rfl

/-- Waiting for the home directory. -/
theorem wins_home {cfg : AuthCfg} {y : Auth} {acct : Account} {home u m R ex sf} {r : AuthReq} {k : KeyReq}
    (hs : y.stop = false) (h : Won ({ y with task := none }.homeRead cfg r k home) u m R ex sf) :
    WinsFrom cfg { y with task := some (.home r k) } acct home u m R ex sf := by
  refine ⟨?_, ?_⟩ <;> simpa [Auth.run, Auth.step, hs, Auth.resume] using h

/-- Waiting for the translation server. -/
theorem wins_translate {cfg : AuthCfg} {y : Auth} {acct : Account} {home u m R ex sf} {r : AuthReq} {pw : Bytes}
    (hs : y.stop = false)
    (h : Won (Auth.run cfg ({ y with task := none }.translated cfg r pw (some acct)) [.home home]) u m R ex sf) :
    WinsFrom cfg { y with task := some (.translate r pw) } acct home u m R ex sf := by
  refine ⟨?_, ?_⟩ <;> simpa [Auth.run, Auth.step, hs, Auth.resume] using h

theorem publickey_result {cfg : AuthCfg} {y : Auth} {u alg key sig : Bytes} {b : UInt8} {async : Bool} {home : Option Bytes}
    {R : Restrictions} (hb : b ≠ 0) (hs : sig.length < 2 ^ 32) (h1 : alg.length < 2 ^ 32) (h2 : key.length < 2 ^ 32)
    (hfit : (signedBytes cfg.sessionId (authRequest u (ascii "publickey") (b :: (str alg ++ str key)))).length ≤ BUFFER_SIZE)
    (hk : cfg.parseKey key = true)
    (hv : cfg.verify key (signedBytes cfg.sessionId (authRequest u (ascii "publickey") (b :: (str alg ++ str key)))) sig =
      some true)
    (hg : KeyGrants cfg.world (y.translation.bind (·.account.keys)) (if y.useHome then home else none) key R)
    (ht : y.task = none) :
    let r : AuthReq :=
      { payload := authRequest u (ascii "publickey") (b :: (str alg ++ (str key ++ str sig))), user := u,
        service := ascii "ssh-connection", method := ascii "publickey", rest := b :: (str alg ++ (str key ++ str sig)) }
    Won (y.byMethod cfg r false async) u (ascii "publickey") R y.allowExec y.allowSftp ∨
    ∃ k, y.byMethod cfg r false async = { y with task := some (.home r k) } ∧
      Won ({ y with task := none }.homeRead cfg r k home) u (ascii "publickey") R y.allowExec y.allowSftp := by
  intro r
  have e : y.byMethod cfg r false async = y.publickey cfg r async := by
    unfold Auth.byMethod; rw [if_pos rfl]
  rw [e]
  unfold Auth.publickey
  have hp : parseKeyReq r.rest = _ := parseKeyReq_spec h1 h2 b (str sig)
  rw [hp]
  simp only
  rcases keyGrants_find hg with ⟨o, g1, g2⟩ | ⟨g0, t, o, g1, g2, g3⟩
  · rw [g1]
    subst g2
    exact .inl (won_keyAccepted (y := { y with opts := o }) hb hs hfit hk hv)
  · right
    rw [g0]
    have hu : y.useHome = true := by
      cases hu : y.useHome with
      | true => rfl
      | false => rw [hu] at g1; simp at g1
    simp only [hu, cond_true]
    rw [hu, if_pos rfl] at g1
    subst g1
    refine ⟨_, rfl, ?_⟩
    unfold Auth.homeRead
    simp only [Option.bind_some, g2]
    subst g3
    have := won_keyAccepted (cfg := cfg) (y := { ({ y with task := none }.say (.homeKeys (some t))) with opts := o })
      (async := true) hb hs hfit hk hv
    exact this

theorem byMethod_pw {cfg : AuthCfg} {y : Auth} {r : AuthReq} {pa async : Bool} (h : r.method = ascii "publickey") :
    y.byMethod cfg r pa async = y.byMethod cfg r false async := by
  unfold Auth.byMethod; rw [if_pos h, if_pos h]

theorem lazyTranslate_none {cfg : AuthCfg} {y : Auth} (h : y.translation = none) (r : AuthReq) (pw : Bytes) (async : Bool) :
    y.lazyTranslate cfg r pw async = { y with task := some (.translate r pw) } := by
  unfold Auth.lazyTranslate
  split
  · rename_i t ht; rw [h] at ht; simp at ht
  · rfl

/-- The account, as seen by the specification. -/
def acctOf (cfg : AuthCfg) (acct : Account) : Option Account := if cfg.translation then some acct else none

theorem afterTarpit_publickey {cfg : AuthCfg} {y : Auth} {acct : Account} {u alg key sig : Bytes} {b : UInt8} {async : Bool}
    {home : Option Bytes} {R : Restrictions} (hu : ValidUser u) (hb : b ≠ 0) (hs : sig.length < 2 ^ 32)
    (h1 : alg.length < 2 ^ 32) (h2 : key.length < 2 ^ 32)
    (hfit : (signedBytes cfg.sessionId (authRequest u (ascii "publickey") (b :: (str alg ++ str key)))).length ≤ BUFFER_SIZE)
    (hk : cfg.parseKey key = true)
    (hv : cfg.verify key (signedBytes cfg.sessionId (authRequest u (ascii "publickey") (b :: (str alg ++ str key)))) sig =
      some true)
    (hok : cfg.translation = true → acct.ok = true ∧ (acct.shell = true → acct.shellValid = true))
    (hpw : cfg.translation = false → cfg.getpwnam u = true)
    (hg : KeyGrants cfg.world ((acctOf cfg acct).bind (·.keys))
      (if ((acctOf cfg acct).map (·.noHomeKeys)).getD false then none else home) key R)
    (ht : y.task = none) (htr : y.translation = none) (hst : y.stop = false) (he : y.allowExec = true)
    (hsf : y.allowSftp = true) :
    WinsFrom cfg (y.afterTarpit cfg
      { payload := authRequest u (ascii "publickey") (b :: (str alg ++ (str key ++ str sig))), user := u,
        service := ascii "ssh-connection", method := ascii "publickey", rest := b :: (str alg ++ (str key ++ str sig)) } async)
      acct home u (ascii "publickey") R (mayExec (acctOf cfg acct) []) (maySftp (acctOf cfg acct)) := by
  have hval := (isValidUsername_iff u).mpr hu
  unfold Auth.afterTarpit
  rw [if_neg (by simp)]
  simp only [hval, Bool.not_true, cond_false]
  cases htl : cfg.translation with
  | true =>
    simp only [cond_true]
    have ha : acctOf cfg acct = some acct := by simp [acctOf, htl]
    rw [ha] at hg ⊢
    obtain ⟨g1, g2⟩ := hok htl
    unfold Auth.withTranslation
    rw [if_neg (by simp only; decide)]
    rw [lazyTranslate_none htr]
    apply wins_translate hst
    unfold Auth.translated Auth.accountKnown
    simp only [g1, Bool.not_true, cond_false]
    have hsv : (acct.shell && !acct.shellValid) = false := by
      cases h : acct.shell with
      | false => rfl
      | true => simp [g2 h]
    rw [hsv, cond_false, byMethod_pw rfl]
    let y1 : Auth := { y with task := none, translation := some { user := u, password := [], account := acct },
                              log := y.log ++ [AuthEntry.account u [] acct] }.applyAccount acct []
    have hp := publickey_result (cfg := cfg) (y := y1) (u := u) (alg := alg) (key := key) (sig := sig) (b := b)
      (async := true) (home := home) (R := R) hb hs h1 h2 hfit hk hv
      (by
        have : y1.translation = some { user := u, password := [], account := acct } := rfl
        have hh : (if y1.useHome then home else none) = if acct.noHomeKeys then none else home := by
          show (if !acct.noHomeKeys then home else none) = _
          cases acct.noHomeKeys <;> rfl
        rw [this, hh]; exact hg) rfl
    have e1 : y1.allowExec = mayExec (some acct) [] := by
      show (y.allowExec && _ && _) = _
      rw [he]
      simp only [mayExec, List.isEmpty_nil, Bool.true_and]
      cases acct.shell <;> cases acct.sftpOnlyToken <;> simp
    have e2 : y1.allowSftp = maySftp (some acct) := by
      show (bif acct.shell then y.allowSftp else acct.sftp) = _
      rw [hsf]
      simp only [maySftp]
      cases acct.shell <;> simp
    rw [e1, e2] at hp
    rcases hp with hp | ⟨k, hp1, hp2⟩
    · exact won_step (ev := .home home) hp rfl
    · show Won (Auth.run cfg (y1.byMethod cfg _ false true) [.home home]) _ _ _ _ _
      rw [hp1]
      have hst1 : y1.stop = false := hst
      simpa [Auth.run, Auth.step, hst1, Auth.resume] using hp2
  | false =>
    simp only [cond_false, hpw htl, Bool.not_true]
    have ha : acctOf cfg acct = none := by simp [acctOf, htl]
    rw [ha] at hg ⊢
    have hp := publickey_result (cfg := cfg) (y := y) (u := u) (alg := alg) (key := key) (sig := sig) (b := b)
      (async := async) (home := home) (R := R) hb hs h1 h2 hfit hk hv
      (by
        have hh : y.useHome = true := by simp [Auth.useHome, htr]
        rw [htr, hh]; exact hg) ht
    have e1 : mayExec none [] = y.allowExec := he.symm
    have e2 : maySftp none = y.allowSftp := hsf.symm
    rw [e1, e2]
    rcases hp with hp | ⟨k, hp1, hp2⟩
    · exact wins_of_won hp
    · rw [hp1]
      exact wins_home hst hp2

/-- A request after the greeting. -/
theorem first_request {cfg : AuthCfg} {acct : Account} {home : Option Bytes} {u m fields : Bytes} {R : Restrictions}
    {ex sf : Bool} (hu : u.length < 2 ^ 32) (hm : m.length < 2 ^ 32)
    (h : ∀ (y : Auth) async, y.task = none → y.translation = none → y.stop = false → y.allowExec = true → y.allowSftp = true →
      y.opts = {} →
      WinsFrom cfg (y.afterTarpit cfg
        { payload := authRequest u m fields, user := u, service := ascii "ssh-connection", method := m, rest := fields }
        async) acct home u m R ex sf) (d delay : Bool) :
    Won (Auth.run cfg {} [.encrypted, .packet 5 (str (ascii "ssh-userauth")) d, .packet 50 (authRequest u m fields) delay,
      .timer, .translated (some acct), .home home]) u m R ex sf := by
  have e : ∀ l, Auth.run cfg {} ([.encrypted, .packet 5 (str (ascii "ssh-userauth")) d] ++ l) = Auth.run cfg greeted l := by
    intro l
    rw [← greeted_eq cfg d]
    simp [Auth.run]
  have e2 := e [.packet 50 (authRequest u m fields) delay, .timer, .translated (some acct), .home home]
  simp only [List.cons_append, List.nil_append] at e2
  rw [e2]
  have e3 : ∀ l, Auth.run cfg greeted (.packet 50 (authRequest u m fields) delay :: l) =
      Auth.run cfg ((greeted.say (.received 50 (authRequest u m fields))).userAuthRequest cfg (authRequest u m fields) delay) l :=
    fun _ => rfl
  rw [e3]
  unfold Auth.userAuthRequest
  rw [parseAuthReq_spec hu hm]
  simp only
  cases delay with
  | false =>
    simp only [cond_false]
    exact (h _ false rfl rfl rfl rfl rfl rfl).1
  | true =>
    simp only [cond_true]
    have := (h (greeted.say (.received 50 (authRequest u m fields))) true rfl rfl rfl rfl rfl rfl).2
    exact this

theorem won_host {cfg : AuthCfg} {y : Auth} {u alg key host cu sig : Bytes} {pa async : Bool} {R : Restrictions}
    (h1 : alg.length < 2 ^ 32) (h2 : key.length < 2 ^ 32) (h3 : host.length < 2 ^ 32) (h4 : cu.length < 2 ^ 32)
    (hs : sig.length < 2 ^ 32)
    (hfit : (signedBytes cfg.sessionId (authRequest u (ascii "hostbased")
      (str alg ++ (str key ++ (str host ++ str cu))))).length ≤ BUFFER_SIZE)
    (hk : cfg.parseKey key = true)
    (hv : cfg.verify key (signedBytes cfg.sessionId (authRequest u (ascii "hostbased")
      (str alg ++ (str key ++ (str host ++ str cu))))) sig = some true)
    (hg : cfg.world.hostKey key = some R) :
    Won (y.byMethod cfg
      { payload := authRequest u (ascii "hostbased") (str alg ++ (str key ++ (str host ++ (str cu ++ str sig)))), user := u,
        service := ascii "ssh-connection", method := ascii "hostbased",
        rest := str alg ++ (str key ++ (str host ++ (str cu ++ str sig))) } pa async)
      u (ascii "hostbased") R y.allowExec y.allowSftp := by
  have hg : (cfg.hostKeys.find key).map KeyOptions.restrictions = some R := hg
  rw [Option.map_eq_some_iff] at hg
  obtain ⟨o, g1, rfl⟩ := hg
  have hc : consumed (authRequest u (ascii "hostbased") (str alg ++ (str key ++ (str host ++ (str cu ++ str sig)))))
      (str sig) = authRequest u (ascii "hostbased") (str alg ++ (str key ++ (str host ++ str cu))) := by
    have : authRequest u (ascii "hostbased") (str alg ++ (str key ++ (str host ++ (str cu ++ str sig)))) =
      authRequest u (ascii "hostbased") (str alg ++ (str key ++ (str host ++ str cu))) ++ str sig := by simp [authRequest]
    rw [this, consumed_append]
  unfold Auth.byMethod
  rw [if_neg (by simp only; decide), if_pos rfl]
  unfold Auth.hostBased
  simp only [parseHostReq_spec h1 h2 h3 h4 hs, g1]
  unfold Auth.hostAccepted
  simp only [hk, Bool.not_true, cond_false, hc, signedData_fits hfit, hv]
  exact won_accept cfg { y with opts := o, hostbased := true } _ async

/-- Continuing with a known account. -/
theorem afterTarpit_simple {cfg : AuthCfg} {y : Auth} {acct : Account} {r : AuthReq} {async : Bool} {pw : Bytes}
    {home : Option Bytes} {R : Restrictions} (hu : ValidUser r.user) (hsv : r.service = ascii "ssh-connection")
    (hpw : (r.method = ascii "password" ∧ cfg.translation = true ∧ pw ≠ [] ∧ parsePassword r.rest = some ((false, pw), [])) ∨
      (r.method ≠ ascii "password" ∧ pw = []))
    (hok : cfg.translation = true → acct.ok = true ∧ (acct.shell = true → acct.shellValid = true))
    (hgp : cfg.translation = false → cfg.getpwnam r.user = true)
    (hw : ∀ (y' : Auth) async, y'.opts = y.opts → Won (y'.byMethod cfg r (cfg.translation && passwordAccepted acct pw) async) r.user
      r.method R y'.allowExec y'.allowSftp)
    (htr : y.translation = none) (hst : y.stop = false) (he : y.allowExec = true) (hsf : y.allowSftp = true) :
    WinsFrom cfg (y.afterTarpit cfg r async)
      acct home r.user r.method R (mayExec (acctOf cfg acct) pw) (maySftp (acctOf cfg acct)) := by
  have hval := (isValidUsername_iff r.user).mpr hu
  unfold Auth.afterTarpit
  rw [if_neg (by simp [hsv])]
  simp only [hval, Bool.not_true, cond_false]
  cases htl : cfg.translation with
  | true =>
    simp only [cond_true]
    have ha : acctOf cfg acct = some acct := by simp [acctOf, htl]
    rw [ha]
    obtain ⟨g1, g2⟩ := hok htl
    have e0 : y.withTranslation cfg r async = y.lazyTranslate cfg r pw async := by
      unfold Auth.withTranslation
      rcases hpw with ⟨p1, p2, p3, p4⟩ | ⟨p1, p2⟩
      · rw [if_pos p1, p4]
        simp only [Bool.false_or]
        have : pw.isEmpty = false := by simpa using p3
        rw [this, cond_false]
      · rw [if_neg p1, p2]
    rw [e0, lazyTranslate_none htr]
    apply wins_translate hst
    unfold Auth.translated Auth.accountKnown
    simp only [g1, Bool.not_true, cond_false]
    have hsv : (acct.shell && !acct.shellValid) = false := by
      cases h : acct.shell with
      | false => rfl
      | true => simp [g2 h]
    rw [hsv, cond_false]
    let y1 : Auth := { y with task := none, translation := some { user := r.user, password := pw, account := acct },
                              log := y.log ++ [AuthEntry.account r.user pw acct] }.applyAccount acct pw
    have hp := hw y1 true rfl
    rw [htl, Bool.true_and] at hp
    have e1 : y1.allowExec = mayExec (some acct) pw := by
      show (y.allowExec && _ && _) = _
      rw [he]
      simp only [mayExec, Bool.true_and]
      cases acct.shell <;> cases acct.sftpOnlyToken <;> simp
    have e2 : y1.allowSftp = maySftp (some acct) := by
      show (bif acct.shell then y.allowSftp else acct.sftp) = _
      rw [hsf]
      simp only [maySftp]
      cases acct.shell <;> simp
    rw [e1, e2] at hp
    exact won_step (ev := .home home) hp rfl
  | false =>
    simp only [cond_false, hgp htl, Bool.not_true]
    have ha : acctOf cfg acct = none := by simp [acctOf, htl]
    rw [ha]
    have e1 : mayExec none pw = y.allowExec := he.symm
    have e2 : maySftp none = y.allowSftp := hsf.symm
    rw [e1, e2]
    have hp := hw y async rfl
    rw [htl, Bool.false_and] at hp
    exact wins_of_won hp

end Lukko
