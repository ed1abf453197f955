import Verif.Model.Tally
import Verif.Proof.AuthComplete
/-
  The books (Model/Tally.lean) agree with the log of a connection.
-/
namespace Lukko
open Model Spec

/-! ### Counting -/

theorem counted_nil (c) : counted c [] = 0 := rfl

theorem counted_append (c a b) : counted c (a ++ b) = counted c a + counted c b := List.countP_append ..

theorem counted_count (c c' ts) : counted c (.count c' :: ts) = counted c ts + if c' = c then 1 else 0 := by
  unfold counted
  rw [List.countP_cons]
  by_cases h : c' = c <;> simp [h]

theorem counted_tokens (c n ts) : counted c (.tokens n :: ts) = counted c ts := by
  unfold counted
  rw [List.countP_cons]
  simp

theorem paid_nil : paid [] = 0 := rfl

theorem paid_append (a b) : paid (a ++ b) = paid a + paid b := by simp [paid]

theorem paid_tokens (n ts) : paid (.tokens n :: ts) = n + paid ts := by simp [paid]

theorem paid_count (c ts) : paid (.count c :: ts) = paid ts := by simp [paid]

theorem loginsBy_append (m a b) : loginsBy m (a ++ b) = loginsBy m a + loginsBy m b := List.countP_append ..
theorem loginCount_append (a b) : loginCount (a ++ b) = loginCount a + loginCount b := List.countP_append ..
theorem failures_append (a b) : failures (a ++ b) = failures a + failures b := List.countP_append ..
theorem verdicts_append (a b) : verdicts (a ++ b) = verdicts a + verdicts b := List.countP_append ..
theorem wrongPasswords_append (a b) : wrongPasswords (a ++ b) = wrongPasswords a + wrongPasswords b := List.countP_append ..

/-- Requests whose failure is not counted. -/
def Model.AuthReq.uncounted (r : AuthReq) : Bool :=
  !(r.service == ascii "ssh-connection") || r.method == ascii "none" ||
  (r.method == ascii "password" && match parsePassword r.rest with | some ((true, _), _) => true | _ => false)

/-- A negative answer will be sent. -/
def pendFail : Option AuthTask → Nat
  | some (.failSleep _) => 1
  | _ => 0

/-- The request is still being processed, and its failure will possibly not be counted. -/
def reserve : Option AuthTask → Nat
  | some (.tarpit r) => r.uncounted.toNat
  | some (.translate r _) => r.uncounted.toNat
  | some (.home r _) => r.uncounted.toNat
  | _ => 0

/-- A request is being processed. -/
def busy : Option AuthTask → Nat
  | none => 0
  | some .connect => 0
  | _ => 1

/-- A password is being checked. -/
def guessing : Option AuthTask → Nat
  | some (.translate _ p) => (!p.isEmpty).toNat
  | _ => 0

/-- What the entries `d`, the new task and the books have to do with each other. -/
structure BookLog (r : AuthReq) (x w : Nat) (d : List AuthEntry) (task : Option AuthTask) (ts : List Tally) : Prop where
  pk : counted .publickeyAccepted ts = loginsBy (ascii "publickey") d
  hb : counted .hostbasedAccepted ts = loginsBy (ascii "hostbased") d
  all : loginCount d + w = countedAccepted ts + x
  fl1 : countedFailed ts ≤ failures d + pendFail task
  fl2 : failures d + pendFail task + reserve task ≤ countedFailed ts + r.uncounted.toNat
  recv : counted .received ts = 0
  one : answered d + busy task ≤ 1
  quiet : ∀ e ∈ d, (match e with | .received .. | .account .. | .encrypted => false | _ => true) = true

/-- … for a function of Model/Auth.lean; `x`: a login which was counted before, `w`: counted without a login. -/
structure Books (r : AuthReq) (x w : Nat) (y z : Auth) (ts : List Tally) : Prop where
  log : ∃ d, z.log = y.log ++ d ∧ BookLog r x w d z.task ts
  tarpit : ∀ r', z.task ≠ some (.tarpit r')
  tr : z.translation = y.translation

theorem complete_log (cfg : AuthCfg) (y : Auth) (a : Bool) : (y.complete cfg a).log = y.log := rfl
theorem complete_task (cfg : AuthCfg) (y : Auth) (a : Bool) : (y.complete cfg a).task = none := rfl
theorem complete_translation (cfg : AuthCfg) (y : Auth) (a : Bool) : (y.complete cfg a).translation = y.translation := rfl

/-- The negative answer is sent at once. -/
theorem books_fail {r : AuthReq} {cfg : AuthCfg} {y : Auth} {m : Bytes} {a : Bool} {ts : List Tally}
    (h1 : countedAccepted ts = 0) (h2 : countedFailed ts ≤ 1) (h3 : 1 ≤ countedFailed ts + r.uncounted.toNat)
    (h4 : counted .received ts = 0) : Books r 0 0 y (y.fail cfg m a) ts := by
  refine ⟨⟨[.failure m], rfl, ?_, ?_, ?_, ?_, ?_, h4, ?_, ?_⟩, (by intro r' h; cases h), rfl⟩
  · simp only [countedAccepted] at h1; simp [loginsBy]; omega
  · simp only [countedAccepted] at h1; simp [loginsBy]; omega
  · simp [loginCount, h1]
  · simp [failures]; omega
  · simp only [failures, Auth.fail, complete_task, pendFail, reserve, List.countP_cons, List.countP_nil, if_true]; omega
  · simp [answered, Auth.fail, complete_task, busy]
  · simp

/-- The negative answer is sent later. -/
theorem books_failLater {r : AuthReq} {y : Auth} {m : Bytes} {ts : List Tally}
    (h1 : countedAccepted ts = 0) (h2 : countedFailed ts ≤ 1) (h3 : 1 ≤ countedFailed ts + r.uncounted.toNat)
    (h4 : counted .received ts = 0) : Books r 0 0 y (y.failLater m) ts := by
  refine ⟨⟨[], by simp [Auth.failLater], ?_, ?_, ?_, ?_, ?_, h4, ?_, ?_⟩, (by intro r' h; cases h), rfl⟩
  · simp only [countedAccepted] at h1; simp [loginsBy]; omega
  · simp only [countedAccepted] at h1; simp [loginsBy]; omega
  · simp [loginCount, h1]
  · simp [failures, Auth.failLater, pendFail]; omega
  · simp [failures, Auth.failLater, pendFail, reserve]; omega
  · simp [answered, Auth.failLater, busy]
  · simp

/-- The request ends in another way. -/
theorem books_end {r : AuthReq} {y z : Auth} {e : AuthEntry} {ts : List Tally} (ht : z.task = none)
    (htr : z.translation = y.translation) (hl : z.log = y.log ++ [e])
    (he : (match e with | .received .. | .account .. | .encrypted | .loggedIn _ | .failure _ => false | _ => true) = true)
    (h1 : countedAccepted ts = 0) (h2 : countedFailed ts = 0) (h4 : counted .received ts = 0) : Books r 0 0 y z ts := by
  refine ⟨⟨[e], hl, ?_, ?_, ?_, ?_, ?_, h4, ?_, ?_⟩, (by intro r' h; rw [ht] at h; cases h), htr⟩
  · simp only [countedAccepted] at h1; cases e <;> simp_all [loginsBy]
  · simp only [countedAccepted] at h1; cases e <;> simp_all [loginsBy]
  · cases e <;> simp_all [loginCount]
  · omega
  · rw [ht]; cases e <;> simp_all [failures, pendFail, reserve]
  · rw [ht]; cases e <;> simp_all [answered, busy]
  · cases e <;> simp_all

theorem books_malformed {r : AuthReq} {y : Auth} {a : Bool} {ts : List Tally} (ht : y.task = none)
    (h1 : countedAccepted ts = 0) (h2 : countedFailed ts = 0) (h4 : counted .received ts = 0) :
    Books r 0 0 y (y.malformed a) ts := by
  cases a
  · exact books_end (e := .disconnected 2) ht rfl rfl rfl h1 h2 h4
  · exact books_end (e := .closed) ht rfl rfl rfl h1 h2 h4

/-- The request is not finished. -/
theorem books_task {r : AuthReq} {y : Auth} {t : AuthTask} {ts : List Tally}
    (htask : (∃ p, t = .translate r p) ∨ ∃ k, t = .home r k)
    (h1 : countedAccepted ts = 0) (h2 : countedFailed ts = 0) (h4 : counted .received ts = 0) :
    Books r 0 0 y { y with task := some t } ts := by
  refine ⟨⟨[], by simp, ?_, ?_, ?_, ?_, ?_, h4, ?_, by simp⟩, ?_, rfl⟩
  · simp only [countedAccepted] at h1; simp [loginsBy]; omega
  · simp only [countedAccepted] at h1; simp [loginsBy]; omega
  · simp [loginCount, h1]
  · omega
  · rcases htask with ⟨p, rfl⟩ | ⟨k, rfl⟩ <;> simp [failures, pendFail, reserve]
  · rcases htask with ⟨p, rfl⟩ | ⟨k, rfl⟩ <;> simp [answered, busy]
  · intro r' h
    rcases htask with ⟨p, rfl⟩ | ⟨k, rfl⟩ <;> simp at h

/-- Success. -/
theorem books_accept {r : AuthReq} {cfg : AuthCfg} {y : Auth} {a : Bool} {ts : List Tally} {x : Nat} (ht : y.task = none)
    (h1 : counted .publickeyAccepted ts = if r.method = ascii "publickey" then 1 else 0)
    (h2 : counted .hostbasedAccepted ts = if r.method = ascii "hostbased" then 1 else 0)
    (h3 : 1 = countedAccepted ts + x) (h4 : countedFailed ts = 0) (h5 : counted .received ts = 0) :
    Books r x 0 y (y.accept cfg r a) ts := by
  have hl : ∀ m l, loginsBy m [AuthEntry.loggedIn l] = if l.method = m then 1 else 0 := by
    intro m l
    by_cases h : l.method = m <;> simp [loginsBy, h]
  unfold Auth.accept
  simp only
  split
  · refine ⟨⟨[.loggedIn (y.login r.user r.method), .closed], by simp [Auth.close], ?_, ?_, ?_, ?_, ?_, h5, ?_, by simp⟩,
      (by intro r' h; simp [Auth.close, ht] at h), rfl⟩
    · rw [h1, show ∀ l : Login, [AuthEntry.loggedIn l, .closed] = [.loggedIn l] ++ [.closed] from fun _ => rfl,
        loginsBy_append, hl]; rfl
    · rw [h2, show ∀ l : Login, [AuthEntry.loggedIn l, .closed] = [.loggedIn l] ++ [.closed] from fun _ => rfl,
        loginsBy_append, hl]; rfl
    · rw [← h3]; rfl
    · omega
    · simp [Auth.close, ht, failures, pendFail, reserve]
    · simp [Auth.close, ht, answered, busy]
  · refine ⟨⟨[.loggedIn (y.login r.user r.method)], by simp, ?_, ?_, ?_, ?_, ?_, h5, ?_, by simp⟩, (by intro r' h; cases h), rfl⟩
    · rw [h1, hl]; rfl
    · rw [h2, hl]; rfl
    · rw [← h3]; rfl
    · omega
    · simp [failures, pendFail, reserve]
    · simp [answered, busy]
  · refine ⟨⟨[.loggedIn (y.login r.user r.method), .success], by simp [Auth.complete], ?_, ?_, ?_, ?_, ?_, h5, ?_, by simp⟩,
      (by intro r' h; cases h), rfl⟩
    · rw [h1, show ∀ l : Login, [AuthEntry.loggedIn l, .success] = [.loggedIn l] ++ [.success] from fun _ => rfl,
        loginsBy_append, hl]; rfl
    · rw [h2, show ∀ l : Login, [AuthEntry.loggedIn l, .success] = [.loggedIn l] ++ [.success] from fun _ => rfl,
        loginsBy_append, hl]; rfl
    · rw [← h3]; rfl
    · omega
    · simp [Auth.complete, failures, pendFail, reserve]
    · simp [Auth.complete, answered, busy]

/-- The books are about the log and the task only. -/
theorem Books.of {r : AuthReq} {x w : Nat} {y y' z : Auth} {ts : List Tally} (h : Books r x w y' z ts)
    (h1 : y'.log = y.log) (h2 : y'.translation = y.translation) : Books r x w y z ts :=
  ⟨by rw [← h1]; exact h.log, h.tarpit, by rw [← h2]; exact h.tr⟩

theorem method_ne : ascii "publickey" ≠ ascii "hostbased" := by decide

theorem books_keySignature {cfg : AuthCfg} {y : Auth} {r : AuthReq} {k : KeyReq} {sig : Bytes} {a : Bool} (ht : y.task = none)
    (hm : r.method = ascii "publickey") :
    Books r 0 0 y (y.checkKeySignature cfg r k sig a) (tallyKeySignature cfg r k sig) := by
  have hne := method_ne
  have h1 : 1 ≤ countedFailed [.count .publickeyFailed] + r.uncounted.toNat := Nat.le_add_right _ _
  unfold Auth.checkKeySignature tallyKeySignature
  cases signedData cfg.sessionId (consumed r.payload k.rest) with
  | error e => exact books_fail rfl (Nat.le_refl _) h1 rfl
  | ok m =>
    simp only
    rcases cfg.verify k.blob m sig with _ | _ | _
    · exact books_fail rfl (Nat.le_refl _) h1 rfl
    · exact books_failLater rfl (Nat.le_refl _) h1 rfl
    · exact books_accept ht (by rw [if_pos hm]; rfl) (by rw [hm, if_neg hne]; rfl) rfl rfl rfl

theorem books_keyAccepted {cfg : AuthCfg} {y : Auth} {r : AuthReq} {k : KeyReq} {a : Bool} (ht : y.task = none)
    (hm : r.method = ascii "publickey") : Books r 0 0 y (y.keyAccepted cfg r k a) (tallyKeyAccepted cfg r k) := by
  unfold Auth.keyAccepted tallyKeyAccepted
  cases cfg.parseKey k.blob
  · exact books_fail rfl (Nat.le_refl _) (Nat.le_add_right _ _) rfl
  · cases hs : k.withSig
    · cases hr : k.rest.isEmpty
      · exact books_malformed ht rfl rfl rfl
      · exact books_end (e := .keyOk k.alg k.blob) rfl rfl rfl rfl rfl rfl rfl
    · simp only [Bool.not_true, cond_false]
      cases parseSignature k.rest with
      | none => exact books_malformed ht rfl rfl rfl
      | some p => exact books_keySignature ht hm

/-- Charging the client changes nothing. -/
theorem Books.tokens {r : AuthReq} {x w : Nat} {y z : Auth} {ts : List Tally} (h : Books r x w y z ts) (n : Nat) :
    Books r x w y z (.tokens n :: ts) := by
  obtain ⟨⟨d, hd, hb⟩, h2, h3⟩ := h
  have e : countedFailed (.tokens n :: ts) = countedFailed ts := by simp only [countedFailed, counted_tokens]
  have e' : countedAccepted (.tokens n :: ts) = countedAccepted ts := by simp only [countedAccepted, counted_tokens]
  exact ⟨⟨d, hd, by rw [counted_tokens]; exact hb.pk, by rw [counted_tokens]; exact hb.hb, by rw [e']; exact hb.all,
    by rw [e]; exact hb.fl1, by rw [e]; exact hb.fl2, by rw [counted_tokens]; exact hb.recv, hb.one, hb.quiet⟩, h2, h3⟩

theorem books_publickey {cfg : AuthCfg} {y : Auth} {r : AuthReq} {a : Bool} (ht : y.task = none)
    (hm : r.method = ascii "publickey") : Books r 0 0 y (y.publickey cfg r a) (y.tallyPublickey cfg r) := by
  unfold Auth.publickey Auth.tallyPublickey
  cases parseKeyReq r.rest with
  | none => exact books_malformed ht rfl rfl rfl
  | some p =>
    simp only
    refine Books.tokens ?_ _
    cases y.findKey cfg p.1.blob with
    | some o => exact (books_keyAccepted (y := { y with opts := o }) ht hm).of rfl rfl
    | none =>
      simp only
      cases y.useHome
      · exact books_failLater rfl (Nat.le_refl _) (Nat.le_add_right _ _) rfl
      · exact books_task (.inr ⟨_, rfl⟩) rfl rfl rfl

theorem books_hostAccepted {cfg : AuthCfg} {y : Auth} {r : AuthReq} {q : HostReq} {a : Bool} (ht : y.task = none)
    (hm : r.method = ascii "hostbased") : Books r 0 0 y (y.hostAccepted cfg r q a) (tallyHostAccepted cfg r q) := by
  have hne := method_ne
  unfold Auth.hostAccepted tallyHostAccepted
  cases cfg.parseKey q.blob
  · exact books_fail rfl (Nat.le_refl _) (Nat.le_add_right _ _) rfl
  · simp only [Bool.not_true, cond_false]
    cases signedData cfg.sessionId (consumed r.payload q.rest) with
    | error e => exact books_fail rfl (Nat.le_refl _) (Nat.le_add_right _ _) rfl
    | ok m =>
      simp only
      rcases cfg.verify q.blob m q.sig with _ | _ | _
      · exact books_fail rfl (Nat.le_refl _) (Nat.le_add_right _ _) rfl
      · exact books_fail rfl (Nat.le_refl _) (Nat.le_add_right _ _) rfl
      · exact (books_accept (y := { y with hostbased := true }) ht (by rw [hm, if_neg hne.symm]; rfl)
          (by rw [if_pos hm]; rfl) rfl rfl rfl).of rfl rfl

theorem books_hostBased {cfg : AuthCfg} {y : Auth} {r : AuthReq} {a : Bool} (ht : y.task = none)
    (hm : r.method = ascii "hostbased") : Books r 0 0 y (y.hostBased cfg r a) (tallyHostBased cfg r) := by
  unfold Auth.hostBased tallyHostBased
  cases parseHostReq r.rest with
  | none => exact books_malformed ht rfl rfl rfl
  | some p =>
    simp only
    cases cfg.hostKeys.find p.1.blob with
    | none => exact books_failLater rfl (Nat.le_refl _) (Nat.le_add_right _ _) rfl
    | some o => exact (books_hostAccepted (y := { y with opts := o }) ht hm).of rfl rfl

/-- Does a password decide about this request? -/
def Model.AuthReq.plain (r : AuthReq) : Bool := !(r.method == ascii "publickey") && !(r.method == ascii "hostbased")

theorem books_byMethod {cfg : AuthCfg} {y : Auth} {r : AuthReq} {pa a : Bool} (ht : y.task = none) :
    Books r (pa && r.plain).toNat 0 y (y.byMethod cfg r pa a) (y.tallyMethod cfg r pa) := by
  unfold Auth.byMethod Auth.tallyMethod
  by_cases h1 : r.method = ascii "publickey"
  · rw [if_pos h1, if_pos h1]
    simpa [AuthReq.plain, h1] using books_publickey ht h1
  · rw [if_neg h1, if_neg h1]
    by_cases h2 : r.method = ascii "hostbased"
    · rw [if_pos h2, if_pos h2]
      simpa [AuthReq.plain, h2] using books_hostBased ht h2
    · rw [if_neg h2, if_neg h2]
      have hp : r.plain = true := by simp [AuthReq.plain, h1, h2]
      rw [hp]
      cases pa
      · simp only [cond_false, Bool.false_and, Bool.toNat_false]
        by_cases h3 : r.method = ascii "none"
        · rw [if_pos h3]
          exact books_failLater rfl (Nat.zero_le _) (by simp [AuthReq.uncounted, h3]) rfl
        · rw [if_neg h3]
          exact books_failLater rfl (Nat.le_refl _) (Nat.le_add_right _ _) rfl
      · exact books_accept ht (by rw [if_neg h1]; rfl) (by rw [if_neg h2]; rfl) rfl rfl rfl

/-- `password_accepted` is counted although something else decides. -/
def wasted (r : AuthReq) (password : Bytes) (a : Account) : Nat :=
  (a.ok && !(a.shell && !a.shellValid) && passwordAccepted a password && !r.plain).toNat

theorem books_accountKnown {cfg : AuthCfg} {y : Auth} {r : AuthReq} {password : Bytes} {acct : Account} {a : Bool}
    (ht : y.task = none) :
    Books r 0 (wasted r password acct) y (y.accountKnown cfg r password acct a) (y.tallyAccount cfg r password acct) := by
  unfold Auth.accountKnown Auth.tallyAccount wasted
  cases acct.ok
  · simp only [Bool.not_false, cond_true, Bool.false_and, Bool.toNat_false]
    cases password.isEmpty
    · exact books_failLater rfl (Nat.le_refl _) (Nat.le_add_right _ _) rfl
    · exact books_failLater rfl (Nat.le_refl _) (Nat.le_add_right _ _) rfl
  · simp only [Bool.not_true, cond_false, Bool.true_and]
    cases hv : (acct.shell && !acct.shellValid)
    · simp only [cond_false, Bool.not_false, Bool.true_and]
      have h := books_byMethod (cfg := cfg) (y := y.applyAccount acct password) (r := r) (pa := passwordAccepted acct password)
        (a := a) ht
      have he : (y.applyAccount acct password).tallyMethod cfg r (passwordAccepted acct password) =
          y.tallyMethod cfg r (passwordAccepted acct password) := rfl
      rw [he] at h
      cases hp : passwordAccepted acct password
      · rw [hp] at h
        exact h.of rfl rfl
      · rw [hp] at h
        obtain ⟨⟨d, hd, hb⟩, h2, h3⟩ := h
        have hne : ∀ c ts, c ≠ .passwordAccepted → counted c ([.count .passwordAccepted] ++ ts) = counted c ts := by
          intro c ts hc
          rw [List.singleton_append, counted_count, if_neg hc.symm]; rfl
        refine ⟨⟨d, hd, ?_, ?_, ?_, ?_, ?_, ?_, hb.one, hb.quiet⟩, h2, h3⟩
        · rw [cond_true, hne _ _ (by decide)]; exact hb.pk
        · rw [cond_true, hne _ _ (by decide)]; exact hb.hb
        · have := hb.all
          simp only [countedAccepted, cond_true] at this ⊢
          rw [hne .publickeyAccepted _ (by decide), hne .hostbasedAccepted _ (by decide), List.singleton_append, counted_count, if_pos rfl]
          generalize counted .passwordAccepted _ = n1 at this ⊢
          generalize counted .publickeyAccepted _ = n2 at this ⊢
          generalize counted .hostbasedAccepted _ = n3 at this ⊢
          revert this
          cases r.plain
          · show _ + 0 = _ + 0 → _ + 1 = _; omega
          · show _ + 0 = _ + 1 → _ + 0 = _; omega
        · have := hb.fl1
          simp only [countedFailed, cond_true] at this ⊢
          rw [hne _ _ (by decide), hne _ _ (by decide), hne _ _ (by decide), hne _ _ (by decide), hne _ _ (by decide)]
          exact this
        · have := hb.fl2
          simp only [countedFailed, cond_true] at this ⊢
          rw [hne _ _ (by decide), hne _ _ (by decide), hne _ _ (by decide), hne _ _ (by decide), hne _ _ (by decide)]
          exact this
        · rw [cond_true, hne _ _ (by decide)]; exact hb.recv
    · exact books_end (e := .disconnected 7) ht rfl rfl rfl rfl rfl rfl

/-- The answer which is used again. -/
def wastedLazy (y : Auth) (r : AuthReq) (password : Bytes) : Nat :=
  match y.translation with
  | some t => bif password.isEmpty && t.user == r.user then wasted r password t.account else 0
  | none => 0

theorem lazyTranslate_some {cfg : AuthCfg} {y : Auth} {t : Translation} (h : y.translation = some t) (r : AuthReq) (pw : Bytes)
    (a : Bool) : y.lazyTranslate cfg r pw a =
      bif pw.isEmpty && t.user == r.user then y.accountKnown cfg r pw t.account a
      else { y with task := some (.translate r pw) } := by
  unfold Auth.lazyTranslate
  split
  · rename_i heq; rw [h] at heq; cases heq; rfl
  · rename_i heq; rw [h] at heq; cases heq

theorem books_lazy {cfg : AuthCfg} {y : Auth} {r : AuthReq} {password : Bytes} {a : Bool} (ht : y.task = none) :
    Books r 0 (wastedLazy y r password) y (y.lazyTranslate cfg r password a) (y.tallyLazy cfg r password) := by
  cases h : y.translation with
  | none =>
    rw [lazyTranslate_none h, show y.tallyLazy cfg r password = [] by simp only [Auth.tallyLazy, h],
      show wastedLazy y r password = 0 by simp only [wastedLazy, h]]
    exact books_task (.inl ⟨_, rfl⟩) rfl rfl rfl
  | some t =>
    rw [lazyTranslate_some h, show y.tallyLazy cfg r password = _ by simp only [Auth.tallyLazy, h]; rfl,
      show wastedLazy y r password = _ by simp only [wastedLazy, h]; rfl]
    cases password.isEmpty && t.user == r.user
    · exact books_task (.inl ⟨_, rfl⟩) rfl rfl rfl
    · exact books_accountKnown ht

/-- The password of the request. -/
def Model.AuthReq.password (r : AuthReq) : Bytes :=
  if r.method = ascii "password" then
    match parsePassword r.rest with
    | some ((_, p), _) => p
    | none => []
  else []

def wastedAfter (cfg : AuthCfg) (y : Auth) (r : AuthReq) : Nat :=
  bif cfg.translation && r.method != ascii "password" && r.service == ascii "ssh-connection" && isValidUsername r.user then
    wastedLazy y r [] else 0

theorem books_after {cfg : AuthCfg} {y : Auth} {r : AuthReq} {a : Bool} (ht : y.task = none) :
    Books r 0 (wastedAfter cfg y r) y (y.afterTarpit cfg r a) (y.tallyAfter cfg r) := by
  unfold Auth.afterTarpit Auth.tallyAfter wastedAfter
  by_cases h1 : r.service ≠ ascii "ssh-connection"
  · rw [if_pos h1, if_pos h1]
    simp only [beq_eq_false_iff_ne.mpr h1, Bool.and_false, Bool.false_and, cond_false]
    exact books_fail rfl (Nat.zero_le _) (by simp only [AuthReq.uncounted, beq_eq_false_iff_ne.mpr h1]; exact Nat.le_refl _) rfl
  · rw [if_neg h1, if_neg h1]
    simp only [ne_eq, Decidable.not_not] at h1
    rw [h1]
    cases isValidUsername r.user
    · simp only [Bool.not_false, cond_true, Bool.and_false, cond_false]
      exact books_end (e := .disconnected 15) ht rfl rfl rfl rfl rfl rfl
    · simp only [Bool.not_true, cond_false, beq_self_eq_true, Bool.and_true]
      cases cfg.translation
      · simp only [cond_false, Bool.false_and]
        cases cfg.getpwnam r.user
        · exact books_failLater rfl (Nat.le_refl _) (Nat.le_add_right _ _) rfl
        · simpa only [Bool.false_and, Bool.toNat_false, Bool.not_true, cond_false] using books_byMethod (pa := false) ht
      · simp only [cond_true, Bool.true_and]
        unfold Auth.withTranslation Auth.tallyTranslation
        by_cases h2 : r.method = ascii "password"
        · rw [if_pos h2, if_pos h2]
          simp only [h2, bne_self_eq_false, cond_false]
          cases hp : parsePassword r.rest with
          | none => exact books_malformed ht rfl rfl rfl
          | some p =>
            obtain ⟨⟨change, password⟩, rest⟩ := p
            simp only
            cases change
            · cases he : password.isEmpty
              · simp only [Bool.false_or, cond_false]
                refine Books.tokens ?_ _
                have := books_lazy (cfg := cfg) (r := r) (password := password) (a := a) ht
                have hw : wastedLazy y r password = 0 := by
                  unfold wastedLazy
                  split
                  · rw [he]; rfl
                  · rfl
                rw [hw] at this
                exact this
              · exact books_fail rfl (Nat.le_refl _) (Nat.le_add_right _ _) rfl
            · exact books_fail rfl (Nat.zero_le _) (by simp [AuthReq.uncounted, h2, hp]) rfl
        · rw [if_neg h2, if_neg h2]
          have hb : (r.method != ascii "password") = true := by simp [h2]
          rw [hb, cond_true]
          exact books_lazy ht

end Lukko
