import Verif.Proof.Guard
import Verif.Prop.Auth
import Verif.Prop.Accounting
/-
  C100: guessing passwords is slow and has to be paid for.
-/
namespace Lukko
open Spec Model

/-! ### Demonstration -/

def guardCfg : AcctCfg := { tarpit := true }

/-- A connection on which a wrong password is tried. -/
def guardTry (id : Nat) (wait : Nat) : List GuardEv :=
  [.conn id demoPassword, .acct (.tick wait), .conn id .timer, .conn id (.translated (some { ok := false })),
    .acct (.tick 100000000), .conn id .timer]

def guardOpen (id : Nat) : List GuardEv := .acct (.accept (some [10]) true) :: demoGreeting.map (.conn id)

def guardDemo : Guard :=
  Guard.run guardCfg (fun _ => demoAuth) {} (.acct (.tick 3600000000000) :: (guardOpen 0 ++ guardTry 0 0 ++ guardTry 0 0 ++ guardTry 0 200000000))

/-- **C100.** Each password which is checked costs a token, a wrong one costs eight more, and each attempt to connect
costs one. -/
theorem C100_charged (acfg : AcctCfg) (cfg : Nat → AuthCfg) (evs : List GuardEv) (client : Bytes) :
    oneToken * (guesses (Guard.run acfg cfg {} evs).log client + 8 * wrongGuesses (Guard.run acfg cfg {} evs).log client +
      attempted (Guard.run acfg cfg {} evs).log client) ≤ spent (Guard.run acfg cfg {} evs).log client := by
  have := (inv_guardRun acfg cfg evs).pay client
  simp only [oneToken] at this ⊢
  omega

example : guesses guardDemo.log [10] = 3 ∧ wrongGuesses guardDemo.log [10] = 3 ∧ attempted guardDemo.log [10] = 1 ∧
    spent guardDemo.log [10] = 28 * oneToken := by decide +kernel

/-- The delay after exceeding the budget repeatedly. -/
theorem exceeded_delay {k : Nat} : ∀ {h : List (Nat × Nat)}, Chronological h → Exceeded k h →
    min (k * delayUnit) oneMinute ≤ (Throttle.run {} h).delay := by
  induction k with
  | zero => intro h _ _; simp
  | succ k ih =>
    intro h hc he
    obtain ⟨h0, h1, rfl, h2, h3⟩ := he
    rcases Aux.snoc_cases h1 with rfl | ⟨h1, x, rfl⟩
    · simp at h2
    · rw [← List.append_assoc] at hc ⊢
      obtain ⟨hc1, _⟩ := chron_snoc hc
      have hprev := ih hc1 ⟨h0, h1, rfl, by simpa using h2, fun p q hp hne => h3 p (q ++ [x]) (by rw [hp]; simp) hne⟩
      obtain ⟨t, c⟩ := x
      have hob : OverBudget ((h0 ++ h1) ++ [(t, c)]) := by
        rw [List.append_assoc]
        exact h3 (h1 ++ [(t, c)]) [] (by simp) (by simp)
      have hb := (available_iff hc).mpr hob
      rw [throttle_snoc]
      simp only [Throttle.update, Throttle.after, if_pos hb, maxDelay, delayStep]
      generalize (Throttle.run {} (h0 ++ h1)).delay = n at hprev ⊢
      have hk : (k + 1) * delayUnit = k * delayUnit + delayUnit := Nat.succ_mul _ _
      rw [hk]
      generalize k * delayUnit = m at hprev ⊢
      have h4 : m ≤ n ∨ oneMinute ≤ n := by
        rcases Nat.le_total m oneMinute with h | h
        · rw [Nat.min_eq_left h] at hprev; exact .inl hprev
        · rw [Nat.min_eq_right h] at hprev; exact .inr hprev
      simp only [oneMinute, delayUnit] at h4 ⊢
      split
      · rcases h4 with h4 | h4
        · exact Nat.le_trans (Nat.min_le_left _ _) (Nat.add_le_add_right h4 _)
        · exact Nat.le_trans (Nat.min_le_right _ _) (Nat.le_add_right_of_le h4)
      · rename_i h5
        exact Nat.le_trans (Nat.min_le_right _ _) (Nat.not_lt.mp h5)

/-- **C100.** Every password which is checked belongs to a request of its own (no other password was checked on this
connection since that request), and if at the time of the request the client had exceeded its budget with each of its last
`k` charges, then the password is not checked before `k` tenths of a second (but at most a minute) have passed. -/
theorem C100_delayed {acfg : AcctCfg} (ht : acfg.tarpit = true) (cfg : Nat → AuthCfg) (evs : List GuardEv)
    {a b : List GuardEntry} {id t : Nat} {client : Bytes} {e : AuthEntry}
    (h : (Guard.run acfg cfg {} evs).log = a ++ .on id (some client) t e :: b) (hv : Verdict e = true) :
    ∃ a1 t0, RequestedAt a id (some client) a1 t0 ∧
      ∀ k, Exceeded k (chargesOf (acctPart a1) client) → t0 + min (k * delayUnit) oneMinute ≤ t := by
  obtain ⟨a1, t0, h1, h2⟩ := (inv_guardRun acfg cfg evs).verd a _ b h hv
  refine ⟨a1, t0, h1, fun k hk => ?_⟩
  have h3 := exceeded_delay (h2.chron client) hk
  have h4 := h2.over
  simp only [delayAt, ht, cond_true] at h4
  exact Nat.le_trans (Nat.add_le_add_left h3 _) h4

/-- The third wrong password is checked 0.2 seconds after it was sent: the last two charges have exceeded the budget. -/
example : (timedOn 0 guardDemo.log).filterMap (fun x => bif Verdict x.2 then some x.1 else none) =
      [3600000000000, 3600100000000, 3600400000000] ∧
    chargesOf ((acctPart guardDemo.log).take 6) [10] = [(3600000000000, oneToken), (3600000000000, oneToken),
      (3600000000000, 8 * oneToken), (3600100000000, oneToken), (3600100000000, 8 * oneToken)] := by decide +kernel

example : Exceeded 2 [(3600000000000, oneToken), (3600000000000, oneToken), (3600000000000, 8 * oneToken),
    (3600100000000, oneToken), (3600100000000, 8 * oneToken)] := by
  refine ⟨[(3600000000000, oneToken), (3600000000000, oneToken), (3600000000000, 8 * oneToken)],
    [(3600100000000, oneToken), (3600100000000, 8 * oneToken)], rfl, rfl, ?_⟩
  intro p q hp hne
  match p with
  | [] => exact absurd rfl hne
  | [x] =>
    simp only [List.cons_append, List.nil_append, List.cons.injEq] at hp
    rw [← hp.1]
    exact .inl ⟨[], _, _, _, rfl, by decide⟩
  | [x, y] =>
    simp only [List.cons_append, List.nil_append, List.cons.injEq] at hp
    rw [← hp.1, ← hp.2.1]
    exact .inl ⟨[], _, _, _, rfl, by decide⟩
  | x :: y :: z :: p => simp at hp

/-- **C100.** After a wrong password, a failure is reported not before a tenth of a second has passed since the request
(nor since any earlier request). -/
theorem C100_slow (acfg : AcctCfg) (cfg : Nat → AuthCfg) (evs : List GuardEv) {id : Nat} {l1 l2 l3 : List (Nat × AuthEntry)}
    {t0 t : Nat} {p m : Bytes} (h : timedOn id (Guard.run acfg cfg {} evs).log =
      l1 ++ (t0, .received 50 p) :: (l2 ++ (t, .failure m) :: l3)) (hw : ∃ x ∈ l2, WrongVerdict x.2 = true) :
    t0 + 100 * 1000000 ≤ t :=
  (inv_guardRun acfg cfg evs).slow id l1 t0 p l2 t m l3 h hw

example : (timedOn 0 guardDemo.log).drop 6 = [(3600100000000, .received 50 (authRequest (ascii "joe") (ascii "password")
      (0 :: str (ascii "secret")))), (3600100000000, .account (ascii "joe") (ascii "secret") { ok := false }),
    (3600200000000, .failure []), (3600200000000, .received 50 (authRequest (ascii "joe") (ascii "password")
      (0 :: str (ascii "secret")))), (3600400000000, .account (ascii "joe") (ascii "secret") { ok := false }),
    (3600500000000, .failure [])] := by decide +kernel

theorem spent_charges {log : List GuardEntry} {client : Bytes} (h : ∀ t, .acct (.discarded client t) ∉ log) :
    totalCost (chargesOf (acctPart log) client) = spent log client := by
  induction log using Aux.snoc_ind with
  | h0 => rfl
  | h1 log x ih =>
    have ih := ih fun t ht => h t (List.mem_append_left _ ht)
    rw [acctPart_append, spent_append, ← ih]
    cases x with
    | on id c t e => simp [acctPart, spent]
    | acct e =>
      rw [show acctPart [GuardEntry.acct e] = [e] from rfl, charges_snoc]
      cases e with
      | charged c t cost =>
        by_cases hc : c = client
        · simp [chargesStep, spent, hc, totalCost]
        · simp [chargesStep, spent, hc]
      | discarded c t =>
        by_cases hc : c = client
        · exact absurd (by simp [hc]) (h t)
        · simp [chargesStep, spent, hc]
      | _ => simp [chargesStep, spent]

/-- **C100.** Whoever stays within the budget, and is never forgotten, can check no more than one wrong password in nine
seconds (counted from the start of the clock). -/
theorem C100_rate (acfg : AcctCfg) (cfg : Nat → AuthCfg) (evs : List GuardEv) {client : Bytes}
    (hd : ∀ t, .acct (.discarded client t) ∉ (Guard.run acfg cfg {} evs).log)
    (hb : ¬ OverBudget (chargesOf (acctPart (Guard.run acfg cfg {} evs).log) client)) :
    9 * 1000000000 * wrongGuesses (Guard.run acfg cfg {} evs).log client ≤
      lastTime (chargesOf (acctPart (Guard.run acfg cfg {} evs).log) client) := by
  have h1 := C100_charged acfg cfg evs client
  have h2 := spent_charges hd
  have h3 : wrongGuesses (Guard.run acfg cfg {} evs).log client ≤ guesses (Guard.run acfg cfg {} evs).log client := by
    unfold wrongGuesses guesses
    apply List.countP_mono_left
    intro x _ hx
    cases x with
    | acct e => cases hx
    | on id c t e =>
      simp only [Bool.and_eq_true] at hx ⊢
      exact ⟨hx.1, wrong_verdict hx.2⟩
  have h4 := Nat.not_lt.mp fun h => hb (.inr h)
  simp only [oneToken] at h1
  omega

/-- A patient client. -/
def patientDemo : Guard :=
  Guard.run guardCfg (fun _ => demoAuth) {} (.acct (.tick 3600000000000) :: (guardOpen 0 ++ guardTry 0 0))

example : (∀ t, .acct (.discarded [10] t) ∉ patientDemo.log) ∧ wrongGuesses patientDemo.log [10] = 1 ∧
    ¬ OverBudget (chargesOf (acctPart patientDemo.log) [10]) := by
  have hc : chargesOf (acctPart patientDemo.log) [10] = [(3600000000000, oneToken), (3600000000000, oneToken),
      (3600000000000, 8 * oneToken)] := by decide +kernel
  refine ⟨?_, by decide +kernel, ?_⟩
  · intro t ht
    have h2 : GuardEntry.acct (.discarded [10] t) ∈ patientDemo.log.filter fun e => match e with
      | .acct (.discarded ..) => true | _ => false := List.mem_filter.mpr ⟨ht, rfl⟩
    rw [show (patientDemo.log.filter fun e => match e with
      | .acct (.discarded ..) => true | _ => false) = [] by decide +kernel] at h2
    cases h2
  · rw [hc]
    rintro (⟨a, t, c, b, h1, h2⟩ | h)
    · have hle : totalCost ((t, c) :: b) ≤ 10 * oneToken := by
        have : totalCost (a ++ (t, c) :: b) = 10 * oneToken := by rw [← h1]; decide
        rw [totalCost_append] at this
        omega
      simp only [tokenBurst, oneToken] at h2 hle
      omega
    · revert h; decide

/-- All this is per connection: two connections of a client can check wrong passwords at the same time, although the budget
was exceeded long ago. -/
theorem C100_limit_parallel : ∃ (acfg : AcctCfg) (cfg : Nat → AuthCfg) (evs : List GuardEv) (client : Bytes) (t : Nat),
    acfg.tarpit = true ∧
    ((Guard.run acfg cfg {} evs).log.countP fun x => match x with
      | .on _ c s e => c == some client && s == t && WrongVerdict e
      | _ => false) = 4 ∧ 10 * oneToken < spent (Guard.run acfg cfg {} evs).log client :=
  ⟨guardCfg, fun _ => demoAuth, .acct (.tick 3600000000000) :: ((List.range 4).flatMap guardOpen ++
    (List.range 4).map (fun i => .conn i demoPassword) ++ (List.range 4).map fun i => .conn i (.translated (some { ok := false }))),
    [10], 3600000000000, by decide +kernel⟩

/-- Requests to change the password can be repeated without being charged. -/
theorem C100_limit_free : ∃ (acfg : AcctCfg) (cfg : Nat → AuthCfg) (evs : List GuardEv) (client : Bytes),
    acfg.tarpit = true ∧ failures (onConnection 0 (Guard.run acfg cfg {} evs).log) = 5 ∧
    spent (Guard.run acfg cfg {} evs).log client = oneToken ∧ attempted (Guard.run acfg cfg {} evs).log client = 1 :=
  ⟨guardCfg, fun _ => demoAuth, .acct (.tick 3600000000000) :: (guardOpen 0 ++ (List.replicate 5 [
    .conn 0 (.packet 50 (authRequest (ascii "joe") (ascii "password") (1 :: str (ascii "pw"))) false),
    .acct (.tick 100000000), .conn 0 .timer]).flatten), [10], by decide +kernel⟩

end Lukko
