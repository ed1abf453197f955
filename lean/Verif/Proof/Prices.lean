import Verif.Proof.GuardAuth
import Verif.Spec.Prices
/-
  Every failed attempt was paid for.
-/
namespace Lukko
open Spec Model

/-- An answer which is not "success". -/
def isReply : AuthEntry → Bool
  | .failure _ | .keyOk .. => true
  | _ => false

def replyCount (d : List AuthEntry) : Nat := d.countP isReply

def isRequest : AuthEntry → Bool
  | .received m _ => m == 50
  | _ => false

theorem replyCount_append (a b) : replyCount (a ++ b) = replyCount a + replyCount b := List.countP_append ..

theorem replies_le (d : List AuthEntry) : replyCount d ≤ answered d := by
  unfold replyCount answered
  refine List.countP_mono_left ?_
  intro e _ h
  cases e <;> simp_all [isReply]

/-- What is still to be answered. -/
def dueTask (F : Nat) : Option AuthTask → Nat
  | some (.failSleep _) => F
  | some (.home _ _) => F
  | some (.translate _ p) => (!p.isEmpty).toNat * oneToken
  | _ => 0

theorem dueTask_le {F : Nat} {t : Option AuthTask} (h : guessing t = 0) : dueTask F t ≤ busy t * F := by
  cases t with
  | none => exact Nat.zero_le _
  | some t =>
    cases t with
    | translate r p => change (!p.isEmpty).toNat = 0 at h; simp [dueTask, h]
    | tarpit r => exact Nat.zero_le _
    | connect => exact Nat.zero_le _
    | home r k => simp [dueTask, busy]
    | failSleep m => simp [dueTask, busy]

/-- What a function of Model/Auth.lean does costs at least `F`, of which `c` was paid before. -/
structure Cost (F c : Nat) (y z : Auth) (ts : List Tally) : Prop where
  log : ∃ d, z.log = y.log ++ d ∧ (∀ e ∈ d, isRequest e = false) ∧ replyCount d * F + dueTask F z.task ≤ paid ts + c

theorem cost_books {r : AuthReq} {x w F c : Nat} {y z : Auth} {ts ts' : List Tally} (h : Books r x w y z ts')
    (hg : guessing z.task = 0) (hp : F ≤ paid ts + c) : Cost F c y z ts := by
  obtain ⟨⟨d, hd, hb⟩, _⟩ := h
  refine ⟨d, hd, ?_, Nat.le_trans ?_ hp⟩
  · intro e he
    have := hb.quiet e he
    cases e <;> simp_all [isRequest]
  have h1 := Nat.le_trans (Nat.add_le_add_right (replies_le d) (busy z.task)) hb.one
  have h2 := Nat.mul_le_mul_right F h1
  have h3 := dueTask_le (F := F) hg
  rw [Nat.add_mul, Nat.one_mul] at h2
  omega

theorem cost_end {F c : Nat} {y z : Auth} {e : AuthEntry} {ts : List Tally} (ht : z.task = none) (hl : z.log = y.log ++ [e])
    (he : isReply e = false) (hq : isRequest e = false := by rfl) : Cost F c y z ts := by
  refine ⟨[e], hl, by simpa using hq, ?_⟩
  rw [ht]
  simp [replyCount, he, dueTask]

theorem cost_malformed {F c : Nat} {y : Auth} {a : Bool} {ts : List Tally} (ht : y.task = none) :
    Cost F c y (y.malformed a) ts := by
  cases a
  · exact cost_end (e := .disconnected 2) ht rfl rfl
  · exact cost_end (e := .closed) ht rfl rfl

theorem cost_accept {F c : Nat} {cfg : AuthCfg} {y : Auth} {r : AuthReq} {a : Bool} {ts : List Tally} (ht : y.task = none) :
    Cost F c y (y.accept cfg r a) ts := by
  unfold Auth.accept
  simp only
  split
  · exact ⟨[.loggedIn (y.login r.user r.method), .closed], by simp [Auth.close], by simp [isRequest], by simp [Auth.close, ht, replyCount, isReply, dueTask]⟩
  · exact ⟨[.loggedIn (y.login r.user r.method)], by simp, by simp [isRequest], by simp [replyCount, isReply, dueTask]⟩
  · exact ⟨[.loggedIn (y.login r.user r.method), .success], by simp [Auth.complete], by simp [isRequest], by simp [Auth.complete, replyCount, isReply, dueTask]⟩

theorem cost_fail {F c : Nat} {cfg : AuthCfg} {y : Auth} {m : Bytes} {a : Bool} {ts : List Tally} (h : F ≤ paid ts + c) :
    Cost F c y (y.fail cfg m a) ts := ⟨[.failure m], rfl, by simp [isRequest], by simpa [replyCount, isReply, Auth.fail, complete_task, dueTask] using h⟩

theorem cost_failLater {F c : Nat} {y : Auth} {m : Bytes} {ts : List Tally} (h : F ≤ paid ts + c) :
    Cost F c y (y.failLater m) ts := ⟨[], by simp [Auth.failLater], by simp, by simpa [replyCount, Auth.failLater, dueTask] using h⟩

theorem Cost.of {F c : Nat} {y y' z : Auth} {ts : List Tally} (h : Cost F c y' z ts) (h1 : y'.log = y.log) : Cost F c y z ts :=
  ⟨by rw [← h1]; exact h.log⟩

theorem Cost.le {F c c' : Nat} {y z : Auth} {ts ts' : List Tally} (h : Cost F c y z ts) (h1 : paid ts + c ≤ paid ts' + c') :
    Cost F c' y z ts' := by
  obtain ⟨d, h2, h3, h4⟩ := h
  exact ⟨d, h2, h3, Nat.le_trans h4 h1⟩

/-- The price of a request for the service "ssh-connection". -/
structure Cheap (cfg : AuthCfg) (r : AuthReq) (F : Nat) : Prop where
  user : cfg.translation = false → cfg.getpwnam r.user = false → F = 0
  key : r.method = ascii "publickey" → F ≤ 200000000
  none : r.method = ascii "none" → F ≤ 100000000
  host8 : r.method = ascii "hostbased" → F ≤ 8000000000
  host0 : ∀ q x, r.method = ascii "hostbased" → parseHostReq r.rest = some (q, x) → cfg.hostKeys.find q.blob ≠ .none → F = 0
  change : ∀ p x, cfg.translation = true → r.method = ascii "password" → parsePassword r.rest = some ((true, p), x) → F = 0
  empty : ∀ x, cfg.translation = true → r.method = ascii "password" → parsePassword r.rest = some ((false, []), x) →
    F ≤ 10000000000
  pw : ∀ p, cfg.translation = true → r.method = ascii "password" → p ≠ [] → r.rest = 0 :: str p → F ≤ 9000000000
  other : r.method ≠ ascii "publickey" → r.method ≠ ascii "none" → r.method ≠ ascii "hostbased" →
    (cfg.translation = true → r.method ≠ ascii "password") → F ≤ 5000000000

theorem cost_byMethod {cfg : AuthCfg} {y : Auth} {r : AuthReq} {pa a : Bool} {F c : Nat} (ht : y.task = none)
    (hF : Cheap cfg r F) (hpa : cfg.translation = true → r.method = ascii "password" → pa = true) :
    Cost F c y (y.byMethod cfg r pa a) (y.tallyMethod cfg r pa) := by
  by_cases h1 : r.method = ascii "publickey"
  · by_cases hk : parseKeyReq r.rest = none
    · unfold Auth.byMethod
      rw [if_pos h1]
      unfold Auth.publickey
      rw [hk]
      exact cost_malformed ht
    · refine cost_books (books_byMethod ht) (guessing_byMethod ht r pa a) ?_
      unfold Auth.tallyMethod
      rw [if_pos h1]
      unfold Auth.tallyPublickey
      cases hq : parseKeyReq r.rest with
      | none => exact absurd hq hk
      | some q =>
        simp only
        rw [paid_tokens]
        have := hF.key h1
        omega
  · by_cases h2 : r.method = ascii "hostbased"
    · cases hk : parseHostReq r.rest with
      | none =>
        unfold Auth.byMethod
        rw [if_neg h1, if_pos h2]
        unfold Auth.hostBased
        rw [hk]
        exact cost_malformed ht
      | some q =>
        refine cost_books (books_byMethod ht) (guessing_byMethod ht r pa a) ?_
        unfold Auth.tallyMethod
        rw [if_neg h1, if_pos h2]
        unfold tallyHostBased
        rw [hk]
        simp only
        cases hf : cfg.hostKeys.find q.1.blob with
        | none =>
          simp only
          rw [paid_tokens]
          have := hF.host8 h2
          omega
        | some o =>
          have := hF.host0 q.1 q.2 h2 hk (by rw [hf]; simp)
          omega
    · unfold Auth.byMethod Auth.tallyMethod
      rw [if_neg h1, if_neg h2, if_neg h1, if_neg h2]
      cases pa
      · simp only [cond_false]
        refine cost_failLater ?_
        by_cases h3 : r.method = ascii "none"
        · rw [if_pos h3, paid_tokens]
          have := hF.none h3
          omega
        · rw [if_neg h3, paid_count, paid_tokens]
          have := hF.other h1 h3 h2 (fun h h' => by have := hpa h h'; cases this)
          omega
      · exact cost_accept ht

theorem cost_accountKnown {cfg : AuthCfg} {y : Auth} {r : AuthReq} {p : Bytes} {acct : Account} {a : Bool} {F c : Nat}
    (ht : y.task = none) (htr : cfg.translation = true) (hF : Cheap cfg r F) (hp : PwOk cfg r p)
    (hc : p ≠ [] → oneToken ≤ c) :
    Cost F c y (y.accountKnown cfg r p acct a) (y.tallyAccount cfg r p acct) := by
  have h8 : F ≤ 8000000000 + c := by
    simp only [oneToken] at hc
    by_cases h1 : r.method = ascii "publickey"
    · have := hF.key h1; omega
    by_cases h2 : r.method = ascii "hostbased"
    · have := hF.host8 h2; omega
    by_cases h3 : r.method = ascii "none"
    · have := hF.none h3; omega
    rcases hp with ⟨hp, _, h4, h5⟩ | ⟨_, h4⟩
    · have := hF.pw p htr h4 hp h5
      have := hc hp
      omega
    · have := hF.other h1 h3 h2 h4; omega
  unfold Auth.accountKnown Auth.tallyAccount
  cases acct.ok
  · refine cost_failLater ?_
    simp only [Bool.not_false, cond_true]
    rw [paid_tokens]
    omega
  · simp only [Bool.not_true, cond_false]
    cases hv : (acct.shell && !acct.shellValid)
    · simp only [cond_false]
      have hpa : cfg.translation = true → r.method = ascii "password" → passwordAccepted acct p = true := by
        intro _ hm
        rcases hp with ⟨h1, _⟩ | ⟨_, h2⟩
        · unfold passwordAccepted
          cases p with
          | nil => exact absurd rfl h1
          | cons => rfl
        · exact absurd hm (h2 htr)
      refine ((cost_byMethod (y := y.applyAccount acct p) (a := a) (c := c) ht hF hpa).of (y := y) rfl).le ?_
      show paid (y.tallyMethod cfg r _) + c ≤ _
      rw [paid_append]
      omega
    · exact cost_end (e := .disconnected 7) ht rfl rfl

theorem cost_lazy {cfg : AuthCfg} {y : Auth} {r : AuthReq} {p : Bytes} {a : Bool} {F c : Nat}
    (ht : y.task = none) (htr : cfg.translation = true) (hF : Cheap cfg r F) (hp : PwOk cfg r p)
    (hc : p ≠ [] → oneToken ≤ c) :
    Cost F c y (y.lazyTranslate cfg r p a) (y.tallyLazy cfg r p) := by
  have htask : ∀ ts, Cost F c y { y with task := some (.translate r p) } ts := by
    intro ts
    refine ⟨[], by simp, by simp, ?_⟩
    show 0 * F + (!p.isEmpty).toNat * oneToken ≤ _
    cases p with
    | nil => simp
    | cons x l =>
      have := hc (by simp)
      simp
      omega
  cases h : y.translation with
  | none => rw [lazyTranslate_none h]; exact htask _
  | some t =>
    rw [lazyTranslate_some h, show y.tallyLazy cfg r p = _ by simp only [Auth.tallyLazy, h]; rfl]
    cases p.isEmpty && t.user == r.user
    · exact htask _
    · exact cost_accountKnown ht htr hF hp hc

theorem cost_after {cfg : AuthCfg} {y : Auth} {r : AuthReq} {a : Bool} {F : Nat} (ht : y.task = none)
    (h0 : r.service ≠ ascii "ssh-connection" → F = 0) (hF : r.service = ascii "ssh-connection" → Cheap cfg r F) :
    Cost F 0 y (y.afterTarpit cfg r a) (y.tallyAfter cfg r) := by
  unfold Auth.afterTarpit Auth.tallyAfter
  by_cases h1 : r.service ≠ ascii "ssh-connection"
  · rw [if_pos h1, if_pos h1]
    exact cost_fail (by rw [h0 h1]; exact Nat.zero_le _)
  · rw [if_neg h1, if_neg h1]
    simp only [ne_eq, Decidable.not_not] at h1
    have hF := hF h1
    cases isValidUsername r.user
    · exact cost_end (e := .disconnected 15) ht rfl rfl
    simp only [Bool.not_true, cond_false]
    cases htr : cfg.translation
    · simp only [cond_false]
      cases hg : cfg.getpwnam r.user
      · exact cost_failLater (by rw [hF.user htr hg]; exact Nat.zero_le _)
      · exact cost_byMethod ht hF (by rw [htr]; intro h; cases h)
    · simp only [cond_true]
      unfold Auth.withTranslation Auth.tallyTranslation
      by_cases h2 : r.method = ascii "password"
      · rw [if_pos h2, if_pos h2]
        cases hp : parsePassword r.rest with
        | none => exact cost_malformed ht
        | some q =>
          obtain ⟨⟨change, p⟩, x⟩ := q
          simp only
          cases change
          · simp only [Bool.false_or, cond_false]
            cases p with
            | nil =>
              refine cost_fail ?_
              have := hF.empty x htr h2 hp
              show F ≤ paid (.tokens 10000000000 :: _) + 0
              rw [paid_tokens]
              omega
            | cons b l =>
              obtain ⟨b0, h3, h4⟩ := parsePassword_inv hp
              have hb : b0 = 0 := by
                cases h : b0 != 0
                · simpa using h
                · rw [h] at h4; cases h4
              subst hb
              refine (cost_lazy (c := oneToken) ht htr hF (.inl ⟨by simp, htr, h2, h3⟩) fun _ => Nat.le_refl _).le ?_
              show _ ≤ paid (.tokens 1000000000 :: _) + 0
              rw [paid_tokens]
              simp only [oneToken]
              omega
          · exact cost_fail (by rw [hF.change p x htr h2 hp]; exact Nat.zero_le _)
      · rw [if_neg h2, if_neg h2]
        exact cost_lazy ht htr hF (.inr ⟨rfl, fun _ => h2⟩) fun h => absurd rfl h

/-! ### The price list -/

theorem listed_service {cfg : AuthCfg} {f : Bytes → Nat} (h : Listed cfg.world f) {r : AuthReq}
    (he : r.payload = str r.user ++ (str r.service ++ (str r.method ++ r.rest))) (h1 : r.service ≠ ascii "ssh-connection") :
    f r.payload = 0 := by
  have := h _ _ (.service (user := r.user) (method := r.method) (rest := r.rest) h1)
  rw [anyAuthRequest, ← he] at this
  omega

theorem listed_cheap {cfg : AuthCfg} {f : Bytes → Nat} (h : Listed cfg.world f) {r : AuthReq}
    (he : r.payload = str r.user ++ (str r.service ++ (str r.method ++ r.rest))) (h1 : r.service = ascii "ssh-connection") :
    Cheap cfg r (f r.payload) := by
  have he' : r.payload = anyAuthRequest r.user (ascii "ssh-connection") r.method r.rest := by rw [he, h1]; rfl
  rw [he']
  refine ⟨?_, ?_, ?_, ?_, ?_, ?_, ?_, ?_, ?_⟩
  · intro h2 h3
    exact Nat.le_zero.mp (h _ _ (.user h2 h3))
  · intro h2
    rw [h2]
    exact h _ _ .key
  · intro h2
    rw [h2]
    exact h _ _ .none
  · intro h2
    rw [h2]
    by_cases h3 : ∃ alg blob rest', r.rest = str alg ++ (str blob ++ rest') ∧ cfg.world.hostKey blob ≠ none
    · obtain ⟨alg, blob, rest', h4, h5⟩ := h3
      rw [h4]
      exact Nat.le_trans (h _ _ (.host h5)) (Nat.zero_le _)
    · refine h _ _ (.unknownHost ?_)
      intro alg blob rest' h4
      cases h5 : cfg.world.hostKey blob with
      | none => rfl
      | some o => exact absurd ⟨alg, blob, rest', h4, by rw [h5]; simp⟩ h3
  · intro q x h2 h3 h4
    rw [h2, (parseHostReq_inv h3).1]
    refine Nat.le_zero.mp (h _ _ (.host ?_))
    intro h5
    refine h4 ?_
    simpa [AuthCfg.world] using h5
  · intro p x h2 h3 h4
    obtain ⟨b, h5, h6⟩ := parsePassword_inv h4
    rw [h3, h5]
    refine Nat.le_zero.mp (h _ _ (.change h2 ?_))
    simpa using h6.symm
  · intro x h2 h3 h4
    obtain ⟨b, h5, h6⟩ := parsePassword_inv h4
    have hb : b = 0 := by
      cases h : b != 0
      · simpa using h
      · rw [h] at h6; cases h6
    rw [h3, h5, hb]
    exact h _ _ (.empty h2)
  · intro p h2 h3 h4 h5
    rw [h3, h5]
    exact h _ _ (.password h2 h4)
  · intro h2 h3 h4 h5
    by_cases h6 : r.method = ascii "password"
    · rw [h6]
      refine h _ _ (.noPassword ?_)
      cases h7 : cfg.translation
      · exact h7
      · exact absurd h6 (h5 h7)
    · exact h _ _ (.other h2 h3 h4 h6)

/-! ### The log -/

def lastPayload (log : List AuthEntry) : Bytes := (lastRequest log).getD []

theorem owed_pair (f : Bytes → Nat) (log : List AuthEntry) :
    log.foldl (owedStep f) ([], 0) = (lastPayload log, owed f log) := by
  refine Prod.ext ?_ rfl
  show _ = lastPayload log
  induction log using Aux.snoc_ind with
  | h0 => rfl
  | h1 l e ih =>
    unfold lastPayload at ih ⊢
    rw [List.foldl_append, lastRequest_snoc]
    cases e <;> first
      | exact ih
      | (simp only [List.foldl_cons, List.foldl_nil, owedStep]; split <;> simp_all; done)

theorem owed_snoc (f : Bytes → Nat) (log : List AuthEntry) (e : AuthEntry) :
    owed f (log ++ [e]) = owed f log + if isReply e then f (lastPayload log) else 0 := by
  conv => lhs; unfold owed
  rw [List.foldl_append, owed_pair]
  cases e <;> first
    | rfl
    | (simp only [List.foldl_cons, List.foldl_nil, isReply, owedStep]; split <;> simp; done)

theorem lastPayload_snoc (log : List AuthEntry) {e : AuthEntry} (h : isRequest e = false) :
    lastPayload (log ++ [e]) = lastPayload log := by
  unfold lastPayload
  rw [lastRequest_snoc]
  cases e <;> first
    | rfl
    | (rename_i m p; simp only; rw [if_neg (by simpa [isRequest] using h)]; done)

theorem owed_append (f : Bytes → Nat) (log d : List AuthEntry) (h : ∀ e ∈ d, isRequest e = false) :
    owed f (log ++ d) = owed f log + replyCount d * f (lastPayload log) ∧ lastPayload (log ++ d) = lastPayload log := by
  induction d using Aux.snoc_ind with
  | h0 => simp [replyCount]
  | h1 d e ih =>
    obtain ⟨h1, h2⟩ := ih fun x hx => h x (List.mem_append_left _ hx)
    rw [← List.append_assoc, owed_snoc, lastPayload_snoc _ (h e (by simp)), h1, h2, replyCount_append]
    refine ⟨?_, rfl⟩
    rw [Nat.add_mul, Nat.add_assoc]
    congr 2
    cases h3 : isReply e <;> simp [replyCount, h3]

/-! ### Runs -/

/-- The client has paid `n`. -/
structure PriceInv (f : Bytes → Nat) (y : Auth) (n : Nat) : Prop where
  all : owed f y.log ≤ n
  due : y.stop = false → owed f y.log + dueTask (f (lastPayload y.log)) y.task ≤ n

theorem PriceInv.cost {f : Bytes → Nat} {y z : Auth} {n c : Nat} {ts : List Tally}
    (h : Cost (f (lastPayload y.log)) c y z ts) (hn : owed f y.log + c ≤ n) : PriceInv f z (n + paid ts) := by
  obtain ⟨d, h1, h2, h3⟩ := h
  obtain ⟨h4, h5⟩ := owed_append f y.log d h2
  refine ⟨?_, fun _ => ?_⟩
  · rw [h1, h4]; omega
  · rw [h1, h4, h5]; omega

theorem offBook_replies {d : List AuthEntry} (h : ∀ e ∈ d, offBook e = true) : replyCount d = 0 ∧ ∀ e ∈ d, isRequest e = false := by
  refine ⟨?_, ?_⟩
  · unfold replyCount
    rw [List.countP_eq_zero]
    intro e he
    have := h e he
    cases e <;> simp_all [offBook, isReply]
  · intro e he
    have := h e he
    cases e <;> simp_all [offBook, isRequest]

theorem PriceInv.off {f : Bytes → Nat} {y z : Auth} {n : Nat} (h : PriceInv f y n) (ho : OffBook y z)
    (hs : z.stop = false → y.stop = false) (m : Nat := 0) : PriceInv f z (n + m) := by
  obtain ⟨⟨d, h1, h2⟩, h3, _⟩ := ho
  obtain ⟨h4, h5⟩ := offBook_replies h2
  obtain ⟨h6, h7⟩ := owed_append f y.log d h5
  have := h.all
  refine ⟨?_, fun hz => ?_⟩
  · rw [h1, h6, h4]; omega
  · have := h.due (hs hz)
    rw [h1, h6, h7, h4, h3]; omega

/-- A packet which is not (accepted as) a request. -/
theorem PriceInv.received {f : Bytes → Nat} {y z : Auth} {n : Nat} (h : PriceInv f y n) {m : UInt8} {p : Bytes}
    (ho : OffBook (y.say (.received m p)) z) (hs : y.stop = false)
    (hm : m = 50 → z.stop = true ∨ ∀ F, dueTask F y.task = 0) (k : Nat) : PriceInv f z (n + k) := by
  obtain ⟨⟨d, h1, h2⟩, h3, _⟩ := ho
  obtain ⟨h4, h5⟩ := offBook_replies h2
  obtain ⟨h6, h7⟩ := owed_append f (y.say (.received m p)).log d h5
  have h8 : owed f (y.say (.received m p)).log = owed f y.log := owed_snoc f y.log _
  have h9 := h.all
  rw [h4, h8] at h6
  refine ⟨?_, fun hz => ?_⟩
  · rw [h1, h6]; omega
  · have h10 := h.due hs
    rw [h1, h6, h7, h3]
    show owed f y.log + 0 * _ + dueTask _ y.task ≤ _
    by_cases h50 : m = 50
    · rcases hm h50 with h11 | h11
      · rw [hz] at h11; cases h11
      · rw [h11]; omega
    · rw [show lastPayload (y.say (.received m p)).log = lastPayload y.log from lastPayload_snoc _ (by simpa [isRequest] using h50)]
      omega

theorem malformed_stop (y : Auth) (a : Bool) : (y.malformed a).stop = true := by cases a <;> rfl

theorem due_idle {cfg : AuthCfg} {y : Auth} (h : AuthInv cfg y) (hs : y.stop = false)
    (hu : y.userAuth = false ∨ y.authenticated = true) (F : Nat) : dueTask F y.task = 0 := by
  rcases h with ⟨hp, h1 | ⟨_, h1⟩⟩ | h1
  · rw [hs] at h1; cases h1
  · have hu : y.userAuth = false := by
      rcases hu with hu | hu
      · exact hu
      · rw [hp.auth] at hu; cases hu
    cases ht : y.task with
    | none => rfl
    | some t =>
      rw [ht] at h1
      cases t with
      | tarpit r => rfl
      | connect => rfl
      | translate r p => have := h1.1.ua; rw [hu] at this; cases this
      | home r k => have := h1.ua; rw [hu] at this; cases this
      | failSleep m => rw [show y.userAuth = true from h1] at hu; cases hu
  · rcases h1.task with h2 | h2 <;> rw [h2] <;> rfl

theorem price_packet {cfg : AuthCfg} {y : Auth} {f : Bytes → Nat} {n : Nat} (hf : Listed cfg.world f) (hi : AuthInv cfg y)
    (hs : y.stop = false) (h : PriceInv f y n) (msg : UInt8) (payload : Bytes) (delay : Bool) :
    PriceInv f ((y.say (.received msg payload)).packet cfg msg payload delay)
      (n + paid ((y.say (.received msg payload)).tallyPacket cfg msg payload delay)) := by
  unfold Auth.packet Auth.tallyPacket
  cases hl : (y.say (.received msg payload)).laterHandlers msg payload with
  | some z =>
    refine h.received (offBook_later hl) hs ?_ _
    rintro rfl
    unfold Auth.laterHandlers at hl
    rw [show shouldProxy 50 = false by decide, show isChannelMessage 50 = false by decide,
      show ((50 : UInt8) == MSG_GLOBAL_REQUEST) = false by decide] at hl
    simp at hl
  | none =>
    simp only
    unfold Auth.userAuthPacket
    cases hu : (y.say (.received msg payload)).userAuth
    · exact h.received (offBook_transport _ _) hs (fun _ => .inr (due_idle hi hs (.inl hu))) _
    simp only [Bool.not_true, cond_false]
    cases ho : (y.say (.received msg payload)).task.isSome && !allowedWhileOccupied msg
    · simp only [cond_false]
      by_cases h1 : msg = MSG_SERVICE_REQUEST
      · rw [if_pos h1, if_pos h1]
        refine h.received (offBook_service _ _) hs ?_ _
        rintro rfl
        exact absurd h1 (by decide)
      · rw [if_neg h1, if_neg h1]
        by_cases h2 : msg = MSG_USERAUTH_REQUEST
        · rw [if_pos h2, if_pos h2]
          unfold Auth.handleUserauthRequest
          cases ha : (y.say (.received msg payload)).authenticated
          · cases (y.say (.received msg payload)).haveService
            · exact h.received (.one (e := .disconnected 2)) hs (fun _ => .inl rfl) _
            · simp only [Bool.not_true, cond_false]
              have ht : y.task = none := by
                subst h2
                rw [show allowedWhileOccupied MSG_USERAUTH_REQUEST = false by decide] at ho
                change (y.task.isSome && !false) = false at ho
                cases h : y.task with
                | none => rfl
                | some t => rw [h] at ho; cases ho
              unfold Auth.userAuthRequest Auth.tallyRequest
              cases hp : parseAuthReq payload with
              | none => exact h.received (offBook_malformed _ false) hs (fun _ => .inl rfl) _
              | some r =>
                simp only
                have h5 : msg = 50 := h2
                obtain ⟨hp1, hp2⟩ := parseAuthReq_inv hp
                have hlast : lastPayload (y.say (.received msg payload)).log = r.payload := by
                  show (lastRequest (y.log ++ [_])).getD [] = _
                  rw [lastRequest_snoc, h5, hp1]
                  rfl
                have howed : owed f (y.say (.received msg payload)).log = owed f y.log := owed_snoc f y.log _
                rw [paid_count]
                cases delay
                · simp only [cond_false]
                  rw [← hp1] at hp2
                  refine PriceInv.cost (cost_after (F := f (lastPayload (y.say (.received msg payload)).log)) ht ?_ ?_) ?_
                  · rw [hlast]; exact listed_service hf hp2
                  · rw [hlast]; exact listed_cheap hf hp2
                  · rw [howed]; exact h.all
                · refine PriceInv.cost (c := 0) (y := y.say (.received msg payload)) ⟨[], by simp, by simp, ?_⟩ ?_
                  · exact Nat.le_trans (Nat.le_of_eq (by simp [replyCount, dueTask])) (Nat.zero_le _)
                  · rw [howed]; exact h.all
          · exact h.received (.refl _) hs (fun _ => .inr (due_idle hi hs (.inr ha))) _
        · rw [if_neg h2, if_neg h2]
          refine h.received (offBook_transport _ _) hs ?_ _
          rintro rfl
          exact absurd rfl h2
    · exact h.received (.one (e := .disconnected 2)) hs (fun _ => .inl rfl) _

theorem price_resume {cfg : AuthCfg} {y : Auth} {f : Bytes → Nat} {n : Nat} (hf : Listed cfg.world f) (hi : AuthInv cfg y)
    (hs : y.stop = false) (h : PriceInv f y n) {t : AuthTask} (ht : y.task = some t) (ev : AuthEv) :
    PriceInv f (y.resume cfg t ev) (n + paid (y.tallyResume cfg t ev)) := by
  have hdue := h.due hs
  rw [ht] at hdue
  have htask : TaskOk cfg y (some t) ∨ t = .connect := by
    rcases hi with ⟨hp, h1 | ⟨_, h1⟩⟩ | h1
    · rw [hs] at h1; cases h1
    · rw [ht] at h1; exact .inl h1
    · rcases h1.task with h2 | h2 <;> rw [ht] at h2 <;> cases h2
      exact .inr rfl
  have hlast : ∀ {r : AuthReq}, ReqOk y r → lastPayload y.log = r.payload := by
    intro r hr
    unfold lastPayload
    rw [hr.last]; rfl
  unfold Auth.resume Auth.tallyResume
  split
  · rename_i r
    have hr : ReqOk y r := by
      rcases htask with h1 | h1
      · exact h1.1
      · cases h1
    refine PriceInv.cost (y := { y with task := none }) (cost_after (F := f (lastPayload y.log)) rfl ?_ ?_) ?_
    · rw [hlast hr]; exact listed_service hf hr.eq
    · rw [hlast hr]; exact listed_cheap hf hr.eq
    · exact h.all
  · rename_i r p a
    have hr : ReqOk2 y r ∧ cfg.translation = true ∧ PwOk cfg r p := by
      rcases htask with h1 | h1
      · exact ⟨h1.1, h1.2.2⟩
      · cases h1
    obtain ⟨hr, htr, hpw⟩ := hr
    cases a with
    | none =>
      refine ⟨?_, fun hz => by cases hz⟩
      show owed f (y.log ++ [_]) ≤ _
      rw [owed_snoc]
      have := h.all
      simp only [isReply, Bool.false_eq_true, if_false]
      omega
    | some a =>
      have e1 : owed f (y.log ++ [.account r.user p a]) = owed f y.log := owed_snoc f y.log _
      have e2 : lastPayload (y.log ++ [.account r.user p a]) = lastPayload y.log := lastPayload_snoc _ rfl
      refine PriceInv.cost (c := (!p.isEmpty).toNat * oneToken)
        (y := ({ y with task := none, translation := some { user := r.user, password := p, account := a } } : Auth).say
          (.account r.user p a)) (cost_accountKnown rfl htr ?_ hpw ?_) ?_
      · show Cheap cfg r (f (lastPayload (y.log ++ [_])))
        rw [e2, hlast hr.toReqOk]
        exact listed_cheap hf hr.eq hr.service
      · intro hp
        cases p with
        | nil => exact absurd rfl hp
        | cons => simp
      · show owed f (y.log ++ [_]) + _ ≤ n
        rw [e1]
        exact hdue
  · rename_i r k text
    have hr : HomeOk cfg y r k := by
      rcases htask with h1 | h1
      · exact h1
      · cases h1
    have e1 : owed f (y.log ++ [.homeKeys text]) = owed f y.log := owed_snoc f y.log _
    have e2 : lastPayload (y.log ++ [.homeKeys text]) = lastPayload y.log := lastPayload_snoc _ rfl
    refine PriceInv.cost (c := f (lastPayload y.log)) (y := ({ y with task := none } : Auth).say (.homeKeys text)) ?_ ?_
    · show Cost (f (lastPayload (y.log ++ [_]))) _ _ _ _
      rw [e2]
      unfold Auth.homeRead tallyHome
      simp only
      cases text.bind fun t => fileContains cfg.decode t k.blob with
      | some o =>
        exact (cost_books (books_keyAccepted (cfg := cfg)
          (y := { ({ y with task := none } : Auth).say (.homeKeys text) with opts := o }) (r := r) (k := k) (a := true) rfl hr.method)
          (guessing_keyAccepted (y := { ({ y with task := none } : Auth).say (.homeKeys text) with opts := o }) rfl r k true)
          (Nat.le_add_left _ _)).of rfl
      | none => exact cost_failLater (Nat.le_add_left _ _)
    · show owed f (y.log ++ [_]) + _ ≤ n
      rw [e1]
      exact hdue
  · rename_i m
    refine PriceInv.cost (c := f (lastPayload y.log)) (y := y) (z := _) ⟨[.failure m], rfl, by simp [isRequest], ?_⟩ hdue
    show _ + 0 ≤ _
    simp [replyCount, isReply]
  · refine PriceInv.cost (c := 0) (y := y) (z := _) ⟨[], by simp [Auth.complete], by simp, ?_⟩ h.all
    exact Nat.le_trans (Nat.le_of_eq (by simp [replyCount, dueTask, Auth.complete])) (Nat.zero_le _)
  · exact h.off (OffBook.one (e := .closed)) (fun hz => by cases hz) _
  · exact h.off (OffBook.refl y) id _

theorem price_step {cfg : AuthCfg} {y : Auth} {f : Bytes → Nat} {n : Nat} (hf : Listed cfg.world f) (hi : AuthInv cfg y)
    (h : PriceInv f y n) (ev : AuthEv) : PriceInv f (y.step cfg ev) (n + paid (y.tallyStep cfg ev)) := by
  unfold Auth.step Auth.tallyStep
  cases hs : y.stop
  · have hres : ∀ ev : AuthEv, PriceInv f (match y.task with | none => y | some t => y.resume cfg t ev)
        (n + paid (match y.task with | none => [] | some t => y.tallyResume cfg t ev)) := by
      intro ev
      cases ht : y.task with
      | none => exact h
      | some t => exact price_resume hf hi hs h ht ev
    have hoff : ∀ z m, OffBook y z → PriceInv f z (n + m) := fun z m ho => h.off ho (fun _ => hs) m
    have hdisc : ∀ n, OffBook y (y.disconnect n) := fun n => OffBook.one (e := .disconnected n)
    simp only [cond_false]
    cases ev with
    | encrypted => exact hoff _ _ (offBook_bif (.refl y) (OffBook.one (e := .encrypted)))
    | packet m p d => exact price_packet hf hi hs h m p d
    | timer => exact hres _
    | translated a => exact hres _
    | home t => exact hres _
    | connected ok => exact hres _
    | targetSuccess =>
      refine hoff _ _ (offBook_bif ?_ (.refl y))
      unfold Auth.targetReady
      split
      · exact OffBook.one (e := .disconnected 10)
      · rename_i s _
        exact ⟨⟨[.requestToTarget (s.buf.drop 5), .success], rfl, by simp [offBook]⟩, rfl, rfl⟩
    | targetPacket m p =>
      refine hoff _ _ (offBook_bif (offBook_bif ?_ (OffBook.one (e := .targetReceived m p))) (.refl y))
      exact ⟨⟨[.targetReceived m p, .toClient m p], rfl, by simp [offBook]⟩, rfl, rfl⟩
    | targetDisconnecting => exact hoff { y with proxied := false, stop := false } _ ⟨⟨[], by simp, by simp⟩, rfl, rfl⟩
    | targetGone => exact hoff _ _ (offBook_bif (hdisc _) (.refl y))
    | authTimeout => exact hoff _ _ (offBook_bif (.refl y) (hdisc _))
    | closed => exact hoff _ _ (OffBook.one (e := .closed))
  · exact h

theorem price_run {cfg : AuthCfg} {f : Bytes → Nat} (hf : Listed cfg.world f) (evs : List AuthEv) {y : Auth} {n : Nat}
    (hi : AuthInv cfg y) (h : PriceInv f y n) : PriceInv f (y.run cfg evs) (n + paid (y.tallies cfg evs)) := by
  induction evs generalizing y n with
  | nil => exact h
  | cons ev evs ih =>
    have h1 := ih (y := y.step cfg ev) (inv_authStep hi ev) (price_step hf hi h ev)
    have e : n + paid (y.tallies cfg (ev :: evs)) ≥ n + paid (y.tallyStep cfg ev) + paid ((y.step cfg ev).tallies cfg evs) := by
      rw [Auth.tallies, paid_append, Auth.tally, paid_append]
      omega
    exact ⟨Nat.le_trans h1.all e, fun hs => Nat.le_trans (h1.due hs) e⟩

theorem price_all {cfg : AuthCfg} {f : Bytes → Nat} (hf : Listed cfg.world f) (evs : List AuthEv) :
    owed f (Auth.run cfg {} evs).log ≤ paid (Auth.tallies cfg {} evs) := by
  have := (price_run hf evs (y := {}) (n := 0) (inv_init cfg) ⟨Nat.le_refl _, fun _ => Nat.le_refl _⟩).all
  omega

/-! ### Wrong passwords -/

theorem wrong_quiet {d : List AuthEntry} (h : ∀ e ∈ d, isAccount e = false) : wrongPasswords d = 0 := by
  unfold wrongPasswords
  rw [List.countP_eq_zero]
  intro e he
  have := h e he
  cases e <;> simp_all [isAccount]

theorem wrong_step {cfg : AuthCfg} {y : Auth} (hi : AuthInv cfg y) (ev : AuthEv) :
    wrongPasswords (y.step cfg ev).log ≤ wrongPasswords y.log + counted .passwordFailed (y.tally cfg ev) := by
  cases hs : y.stop
  · obtain ⟨d, hd, hm⟩ := moved_step (cfg := cfg) hi ev
    rw [hd, wrongPasswords_append]
    suffices h : wrongPasswords d ≤ counted .passwordFailed (y.tally cfg ev) by omega
    cases hm with
    | quiet ht h1 _ =>
      refine Nat.le_trans (Nat.le_of_eq ?_) (Nat.zero_le _)
      unfold wrongPasswords
      rw [List.countP_eq_zero]
      intro e he
      have := h1 e he
      cases e <;> simp_all [isAccount]
    | asked p dl d' ht he h1 h2 =>
      subst h1
      rw [show wrongPasswords (.received 50 p :: d') = wrongPasswords d' by simp [wrongPasswords], wrong_quiet h2]
      exact Nat.zero_le _
    | woken r ht he h1 => rw [wrong_quiet h1]; exact Nat.zero_le _
    | home r k ht h1 => rw [wrong_quiet h1]; exact Nat.zero_le _
    | told r p a d' ht h1 h2 _ _ _ he =>
      subst h1 he
      have e0 : wrongPasswords (.account r.user p a :: d') = wrongPasswords [.account r.user p a] + wrongPasswords d' :=
        wrongPasswords_append [_] d'
      rw [e0, wrong_quiet h2, Auth.tally, counted_append]
      have e1 : y.tallyStep cfg (.translated (some a)) = y.tallyTranslated cfg r p (some a) := by
        unfold Auth.tallyStep
        rw [hs, ht]; rfl
      rw [e1]
      unfold Auth.tallyTranslated Auth.tallyAccount
      cases ho : a.ok
      · cases hp : p.isEmpty
        · simp [wrongPasswords, counted, ho, hp]
        · simp [wrongPasswords, ho, hp]
      · simp [wrongPasswords, ho]
  · unfold Auth.step
    rw [hs]
    exact Nat.le_add_right _ _

theorem wrong_run {cfg : AuthCfg} (evs : List AuthEv) {y : Auth} (hi : AuthInv cfg y) :
    wrongPasswords (y.run cfg evs).log ≤ wrongPasswords y.log + counted .passwordFailed (y.tallies cfg evs) := by
  induction evs generalizing y with
  | nil => exact Nat.le_refl _
  | cons ev evs ih =>
    have h1 := ih (y := y.step cfg ev) (inv_authStep hi ev)
    have h2 := wrong_step (cfg := cfg) hi ev
    rw [Auth.tallies, counted_append]
    show wrongPasswords ((y.step cfg ev).run cfg evs).log ≤ _
    omega

end Lukko
