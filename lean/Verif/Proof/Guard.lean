import Verif.Proof.GuardAcct
import Verif.Proof.GuardAuth
/-
  Guessing passwords: the invariant of a listener with its connections.
-/
namespace Lukko
open Spec Model

/-- The delay for a request when this has happened. -/
def delayAt (acfg : AcctCfg) (a : List GuardEntry) : Option Bytes → Nat
  | none => 0
  | some c => bif acfg.tarpit then (Throttle.run {} (chargesOf (acctPart a) c)).delay else 0

theorem delayOf_eq {acfg : AcctCfg} {s : Acct} (h : AcctInv acfg s) {log : List GuardEntry} (hp : acctPart log = s.log)
    (client : Option Bytes) : s.delayOf client = delayAt acfg log client := by
  cases client with
  | none => rfl
  | some a =>
    simp only [Acct.delayOf, delayAt]
    rw [hp]
    cases hf : s.find a with
    | none =>
      rw [h.forgot a]
      · cases acfg.tarpit <;> rfl
      · intro he
        obtain ⟨e, he⟩ := find_exists he
        rw [hf] at he; cases he
    | some e =>
      obtain ⟨h1, h2⟩ := find_mem hf
      show e.throttle.delay = _
      rw [h.thr e h1, h2]
      cases acfg.tarpit <;> rfl

/-! ### Logs -/

theorem acctPart_append (a b : List GuardEntry) : acctPart (a ++ b) = acctPart a ++ acctPart b := by simp [acctPart]
theorem timedOn_append (id : Nat) (a b : List GuardEntry) : timedOn id (a ++ b) = timedOn id a ++ timedOn id b := by simp [timedOn]
theorem guesses_append (a b : List GuardEntry) (c : Bytes) : guesses (a ++ b) c = guesses a c + guesses b c := by simp [guesses]
theorem wrongGuesses_append (a b : List GuardEntry) (c : Bytes) : wrongGuesses (a ++ b) c = wrongGuesses a c + wrongGuesses b c := by
  simp [wrongGuesses]

theorem acctPart_acct (l : List AcctEntry) : acctPart (l.map .acct) = l := by simp [acctPart, List.filterMap_map, Function.comp_def]
theorem timedOn_acct (id : Nat) (l : List AcctEntry) : timedOn id (l.map .acct) = [] := by simp [timedOn]
theorem guesses_acct (l : List AcctEntry) (c : Bytes) : guesses (l.map .acct) c = 0 := by
  simp [guesses]
theorem wrongGuesses_acct (l : List AcctEntry) (c : Bytes) : wrongGuesses (l.map .acct) c = 0 := by
  simp [wrongGuesses]

theorem acctPart_on (id : Nat) (c : Option Bytes) (t : Nat) (d : List AuthEntry) : acctPart (d.map (.on id c t)) = [] := by
  simp [acctPart]
theorem timedOn_on (id : Nat) (c : Option Bytes) (t : Nat) (d : List AuthEntry) : timedOn id (d.map (.on id c t)) = d.map (t, ·) := by
  simp [timedOn, List.filterMap_map, Function.comp_def]
theorem timedOn_other {id i : Nat} (h : i ≠ id) (c : Option Bytes) (t : Nat) (d : List AuthEntry) :
    timedOn id (d.map (.on i c t)) = [] := by
  simp [timedOn, h]
theorem spent_on (id : Nat) (c : Option Bytes) (t : Nat) (d : List AuthEntry) (x : Bytes) : spent (d.map (.on id c t)) x = 0 := by
  unfold spent
  induction d with
  | nil => rfl
  | cons e d ih => simp only [List.map_cons, List.sum_cons, ih, Nat.add_zero]
theorem attempted_on (id : Nat) (c : Option Bytes) (t : Nat) (d : List AuthEntry) (x : Bytes) :
    attempted (d.map (.on id c t)) x = 0 := by
  simp [attempted]
theorem guesses_on (id : Nat) (c : Option Bytes) (t : Nat) (d : List AuthEntry) (x : Bytes) :
    guesses (d.map (.on id c t)) x = if c = some x then verdicts d else 0 := by
  unfold guesses verdicts
  rw [List.countP_map]
  split
  · rename_i h
    congr 1
    funext e
    cases e <;> simp [h, Verdict]
  · rename_i h
    simp [h]
theorem wrongGuesses_on (id : Nat) (c : Option Bytes) (t : Nat) (d : List AuthEntry) (x : Bytes) :
    wrongGuesses (d.map (.on id c t)) x = if c = some x then wrongPasswords d else 0 := by
  unfold wrongGuesses wrongPasswords
  rw [List.countP_map]
  split
  · rename_i h
    congr 1
    funext e
    cases e <;> simp [h, WrongVerdict]
  · rename_i h
    simp [h]

theorem eachPrev_more {α} {Q : List α → α → Prop} {l m : List α} (h : EachPrev Q l)
    (hm : ∀ e1 x e2, m = e1 ++ x :: e2 → Q (l ++ e1) x) : EachPrev Q (l ++ m) := by
  intro a x b he
  rcases List.append_eq_append_iff.mp he with ⟨k, h1, h2⟩ | ⟨k, h1, h2⟩
  · rw [h1]; exact hm k x b h2
  · cases k with
    | nil =>
      simp at h1 h2
      rw [← h1]
      have := hm [] x b h2.symm
      simpa using this
    | cons y k =>
      simp only [List.cons_append, List.cons.injEq] at h2
      rw [h2.1]
      exact h a y k h1

/-! ### The invariant -/

/-- The connection is waiting before the password is known to be right or wrong. -/
def Undecided (t : Option AuthTask) : Prop := (∃ r, t = some (.tarpit r)) ∨ 0 < guessing t

theorem waiting_guessing {t : Option AuthTask} (h : 0 < guessing t) : ∃ r p, t = some (.translate r p) := by
  match t with
  | some (.translate r p) => exact ⟨r, p, rfl⟩
  | none | some (.tarpit _) | some (.home _ _) | some (.failSleep _) | some .connect => exact absurd h (Nat.lt_irrefl 0)

/-- The answer to a wrong password takes its time. -/
def SlowLog (l : List (Nat × AuthEntry)) : Prop :=
  ∀ l1 t0 p l2 t m l3, l = l1 ++ (t0, .received 50 p) :: (l2 ++ (t, .failure m) :: l3) → (∃ x ∈ l2, WrongVerdict x.2 = true) →
    t0 + 100000000 ≤ t

/-- One connection; `l`: its part of the log. -/
structure ConnTimes (now : Nat) (c : GuardConn) (l : List (Nat × AuthEntry)) : Prop where
  past : ∀ x ∈ l, x.1 ≤ now
  reqs : Undecided c.auth.task → ∀ t0 p, (t0, .received 50 p) ∈ l → t0 ≤ c.asked ∨ c.auth.stop = true
  slow : ∀ l1 t0 p l2, l = l1 ++ (t0, .received 50 p) :: l2 → (∃ x ∈ l2, WrongVerdict x.2 = true) →
    t0 + 100000000 ≤ now ∨ c.auth.stop = true ∨ (∃ m, c.auth.task = some (.failSleep m)) ∧ t0 ≤ c.asked

/-- The delay of a request which was received at `t0`, when `a` had happened, is over at `t`. -/
structure DelayOver (acfg : AcctCfg) (a : List GuardEntry) (client : Option Bytes) (t0 t : Nat) : Prop where
  chron : ∀ x, Chronological (chargesOf (acctPart a) x)
  over : t0 + delayAt acfg a client ≤ t

/-- … and the delay of the request being processed -/
def ConnDelay (acfg : AcctCfg) (now : Nat) (log : List GuardEntry) (c : GuardConn) : Prop :=
  (∃ r, c.auth.task = some (.tarpit r)) ∨ 0 < guessing c.auth.task →
    ∃ a1, RequestedAt log c.id c.client a1 c.asked ∧ DelayOver acfg a1 c.client c.asked c.wake ∧
      (0 < guessing c.auth.task → c.wake ≤ now)

/-- Passwords are checked after the delay of their own request. -/
def VerdictOk (acfg : AcctCfg) (a : List GuardEntry) : GuardEntry → Prop
  | .on id client t e => Verdict e = true → ∃ a1 t0, RequestedAt a id client a1 t0 ∧ DelayOver acfg a1 client t0 t
  | _ => True

/-- Passwords being checked. -/
def pendingOf (client : Bytes) (l : List GuardConn) : Nat :=
  (l.map fun c => if c.client = some client then guessing c.auth.task else 0).sum

structure GuardInv (acfg : AcctCfg) (cfg : Nat → AuthCfg) (g : Guard) : Prop where
  acct : AcctInv acfg g.acct
  part : acctPart g.log = g.acct.log
  uniq : g.conns.Pairwise (·.id ≠ ·.id)
  fresh : ∀ id, g.acct.nextId ≤ id → timedOn id g.log = []
  have_ : ∀ c ∈ g.conns, ∃ a ∈ g.acct.conns, a.id = c.id ∧ a.client = c.client
  auth : ∀ c ∈ g.conns, AuthInv (cfg c.id) c.auth
  own : ∀ c ∈ g.conns, onConnection c.id g.log = c.auth.log
  times : ∀ c ∈ g.conns, ConnTimes g.acct.now c (timedOn c.id g.log)
  delay : ∀ c ∈ g.conns, ConnDelay acfg g.acct.now g.log c
  verd : EachPrev (VerdictOk acfg) g.log
  slow : ∀ id, SlowLog (timedOn id g.log)
  pay : ∀ client, oneToken * (guesses g.log client + pendingOf client g.conns) + 8 * oneToken * wrongGuesses g.log client +
    oneToken * attempted g.log client ≤ spent g.log client

theorem guardConn_eq {l : List GuardConn} (h : l.Pairwise (·.id ≠ ·.id)) {c x : GuardConn} (hc : c ∈ l) (hx : x ∈ l)
    (e : x.id = c.id) : x = c := by
  induction l with
  | nil => cases hc
  | cons y l ih =>
    obtain ⟨h1, h2⟩ := List.pairwise_cons.mp h
    rcases List.mem_cons.mp hc with hc | hc <;> rcases List.mem_cons.mp hx with hx | hx
    · rw [hc, hx]
    · rw [hc] at e; exact absurd e.symm (h1 x hx)
    · rw [hx] at e; exact absurd e (h1 c hc)
    · exact ih h2 hc hx

theorem sum_filter_le {α} (f : α → Nat) (p : α → Bool) (l : List α) : ((l.filter p).map f).sum ≤ (l.map f).sum := by
  induction l with
  | nil => exact Nat.le_refl _
  | cons x l ih =>
    rw [List.filter_cons]
    split <;> simp only [List.map_cons, List.sum_cons] <;> omega

/-- One connection is replaced. -/
theorem sum_replace (f : GuardConn → Nat) {l : List GuardConn} (h : l.Pairwise (·.id ≠ ·.id)) {c c' : GuardConn} (hc : c ∈ l) :
    ((l.map fun x => bif x.id == c.id then c' else x).map f).sum + f c = (l.map f).sum + f c' := by
  induction l with
  | nil => cases hc
  | cons y l ih =>
    obtain ⟨h1, h2⟩ := List.pairwise_cons.mp h
    rcases List.mem_cons.mp hc with rfl | hc
    · have : (l.map fun x => bif x.id == c.id then c' else x) = l := by
        have h3 : ∀ x ∈ l, (bif x.id == c.id then c' else x) = x := by
          intro x hx
          have := h1 x hx
          rw [show (x.id == c.id) = false from beq_eq_false_iff_ne.mpr (Ne.symm this)]; rfl
        rw [List.map_congr_left h3, List.map_id']
      simp only [List.map_cons, List.sum_cons, beq_self_eq_true, cond_true, this]
      omega
    · have hy : (y.id == c.id) = false := by simpa using h1 c hc
      simp only [List.map_cons, List.sum_cons, hy, cond_false]
      have := ih h2 hc
      omega

theorem ids_replace {l : List GuardConn} {c c' : GuardConn} (he : c'.id = c.id) :
    (l.map fun x => bif x.id == c.id then c' else x).map (·.id) = l.map (·.id) := by
  rw [List.map_map]
  apply List.map_congr_left
  intro x _
  show (bif x.id == c.id then c' else x).id = x.id
  by_cases h : x.id = c.id
  · rw [beq_iff_eq.mpr h]; exact he.trans h.symm
  · rw [beq_eq_false_iff_ne.mpr h]; rfl

theorem pairwise_ids {l : List GuardConn} : l.Pairwise (·.id ≠ ·.id) ↔ (l.map (·.id)).Pairwise (· ≠ ·) := by
  rw [List.pairwise_map]

/-! ### One event on a connection -/

theorem requestedAt_more {log e : List GuardEntry} {id : Nat} {c : Option Bytes} {a1 : List GuardEntry} {t0 : Nat}
    (h : RequestedAt log id c a1 t0) (he : ∀ x ∈ timedOn id e, Verdict x.2 = false) : RequestedAt (log ++ e) id c a1 t0 := by
  obtain ⟨p, a2, h1, h2⟩ := h
  refine ⟨p, a2 ++ e, by rw [h1]; simp, ?_⟩
  intro x hx
  unfold onConnection at hx
  rw [timedOn_append, List.map_append, List.mem_append] at hx
  rcases hx with hx | hx
  · exact h2 x hx
  · obtain ⟨y, hy, rfl⟩ := List.mem_map.mp hx
    exact he y hy

theorem account_verdict {e : AuthEntry} (h : isAccount e = false) : Verdict e = false := by
  cases e <;> first | rfl | cases h

theorem wrong_verdict {e : AuthEntry} (h : WrongVerdict e = true) : Verdict e = true := by
  cases e <;> first | cases h | (simp [WrongVerdict, Verdict] at h ⊢; exact h.1)

theorem asked_after (cfg : AuthCfg) (c : GuardConn) (now delay : Nat) (ev : AuthEv) :
    (c.after cfg now delay ev).id = c.id ∧ (c.after cfg now delay ev).client = c.client ∧
    (c.after cfg now delay ev).auth = c.auth.step cfg ev ∧
    ((c.asks ev = true ∧ (c.after cfg now delay ev).asked = now ∧ (c.after cfg now delay ev).wake = now + delay) ∨
      c.asks ev = false ∧ (c.after cfg now delay ev).asked = c.asked ∧ (c.after cfg now delay ev).wake = c.wake) := by
  unfold GuardConn.after
  cases h : c.asks ev
  · exact ⟨rfl, rfl, rfl, .inr ⟨rfl, rfl, rfl⟩⟩
  · exact ⟨rfl, rfl, rfl, .inl ⟨rfl, rfl, rfl⟩⟩

/-- No request is answered, and nothing is known about passwords, except that there is an answer about the account. -/
theorem Moved.verdict {y : Auth} {ev : AuthEv} {t' : Option AuthTask} {d : List AuthEntry} (h : Moved y ev t' d) {e : AuthEntry}
    (he : e ∈ d) (hv : Verdict e = true) : ∃ r p a d', y.task = some (.translate r p) ∧ d = .account r.user p a :: d' ∧
      e = .account r.user p a ∧ (∀ x ∈ d', isAccount x = false) ∧ 0 < guessing y.task ∧
      (a.ok = false → d' = [] ∧ ∃ m, t' = some (.failSleep m)) := by
  have hno : isAccount e = false → False := fun h => by rw [account_verdict h] at hv; cases hv
  cases h with
  | quiet ht hd hf =>
    cases e with
    | account u p a =>
      obtain ⟨m, p', dl, h1, _⟩ := hd _ he rfl
      cases h1
    | _ => cases hv
  | asked p dl d' ht he' hd hd' h1 h2 =>
    subst hd
    rcases List.mem_cons.mp he with rfl | he
    · cases hv
    · exact (hno (hd' _ he)).elim
  | woken r ht he' hd h1 => exact (hno (hd _ he)).elim
  | told r p a d' ht hd hd' h1 h2 h3 =>
    subst hd
    rcases List.mem_cons.mp he with rfl | he
    · refine ⟨r, p, a, d', ht, rfl, rfl, hd', ?_, h3⟩
      rw [ht]
      change (!p.isEmpty) = true at hv
      simp only [guessing, hv, Bool.toNat_true]
      omega
    · exact (hno (hd' _ he)).elim
  | home r k ht hd h1 h2 => exact (hno (hd _ he)).elim

/-- Only packets are received. -/
theorem Moved.received {y : Auth} {ev : AuthEv} {t' : Option AuthTask} {d : List AuthEntry} (h : Moved y ev t' d) {m : UInt8} {p : Bytes}
    (he : .received m p ∈ d) : ∃ dl, ev = .packet m p dl := by
  have hno : isAccount (.received m p) = false → False := fun h => by cases h
  cases h with
  | quiet ht hd hf =>
    obtain ⟨m', p', dl, h1, h2⟩ := hd _ he rfl
    cases h1
    exact ⟨dl, h2⟩
  | asked p' dl d' ht he' hd hd' h1 h2 =>
    subst hd
    rcases List.mem_cons.mp he with h | he
    · cases h; exact ⟨dl, he'⟩
    · exact (hno (hd' _ he)).elim
  | woken r ht he' hd h1 => exact (hno (hd _ he)).elim
  | told r p a d' ht hd hd' h1 h2 h3 =>
    subst hd
    rcases List.mem_cons.mp he with h | he
    · cases h
    · exact (hno (hd' _ he)).elim
  | home r k ht hd h1 h2 => exact (hno (hd _ he)).elim

theorem moved_stop {cfg : AuthCfg} {y : Auth} {ev : AuthEv} {d : List AuthEntry} (h : (y.step cfg ev).log = y.log ++ d)
    (hs : y.stop = true) : d = [] := by
  rw [stopped_step hs] at h
  exact List.append_right_eq_self.mp h.symm

/-- From sleeping before a failure. -/
theorem Moved.sleeping {y : Auth} {ev : AuthEv} {t' : Option AuthTask} {d : List AuthEntry} (h : Moved y ev t' d) {m : Bytes}
    (ht : y.task = some (.failSleep m)) : t' = some (.failSleep m) ∧ (∀ e ∈ d, isFailureEntry e = false) ∨ ev = .timer := by
  cases h with
  | quiet ht' hd hf =>
    by_cases hev : ev = .timer
    · exact .inr hev
    · left
      rcases ht' with h | ⟨_, h⟩
      · refine ⟨h.trans ht, ?_⟩
        intro e he
        cases h2 : isFailureEntry e
        · rfl
        · exact absurd (hf ⟨e, he, h2⟩).1 hev
      · exact absurd (h ⟨m, ht⟩) hev
  | asked p dl d' ht2 he hd hd' h1 h2 => rw [ht] at ht2; cases ht2
  | woken r ht2 he hd h1 => rw [ht] at ht2; cases ht2
  | told r p a d' ht2 hd hd' h1 h2 h3 => rw [ht] at ht2; cases ht2
  | home r k ht2 hd h1 h2 => rw [ht] at ht2; cases ht2

/-- Splitting a log which has grown. -/
theorem split_more {α} {l m l1 l2 : List α} {x : α} (h : l ++ m = l1 ++ x :: l2) :
    (∃ k, l = l1 ++ x :: k ∧ l2 = k ++ m) ∨ ∃ k, l1 = l ++ k ∧ m = k ++ x :: l2 := by
  rcases List.append_eq_append_iff.mp h with ⟨k, h1, h2⟩ | ⟨k, h1, h2⟩
  · exact .inr ⟨k, h1, h2⟩
  · cases k with
    | nil =>
      simp at h1 h2
      exact .inr ⟨[], by simp [h1], by simp [h2]⟩
    | cons y k =>
      simp only [List.cons_append, List.cons.injEq] at h2
      exact .inl ⟨k, by rw [h1, ← h2.1], h2.2⟩

theorem split_map {α β} {f : α → β} {l : List α} {l1 l2 : List β} {x : β} (h : l.map f = l1 ++ x :: l2) :
    ∃ d1 e d2, l = d1 ++ e :: d2 ∧ l1 = d1.map f ∧ x = f e ∧ l2 = d2.map f := by
  obtain ⟨d1, d2, h1, h2, h3⟩ := List.map_eq_append_iff.mp h
  obtain ⟨e, d2', h4, h5, h6⟩ := List.map_eq_cons_iff.mp h3
  exact ⟨d1, e, d2', by rw [h1, h4], h2.symm, h5.symm, h6.symm⟩

/-- The times of a connection. -/
theorem times_step {cfg : AuthCfg} {c : GuardConn} {now delay : Nat} {ev : AuthEv} {l : List (Nat × AuthEntry)} {d : List AuthEntry}
    (hi : AuthInv cfg c.auth) (h : ConnTimes now c l) (hs : SlowLog l) (hdue : c.due now ev = true)
    (hl : (c.auth.step cfg ev).log = c.auth.log ++ d) (hm : Moved c.auth ev (c.auth.step cfg ev).task d) :
    ConnTimes now (c.after cfg now delay ev) (l ++ d.map (now, ·)) ∧ SlowLog (l ++ d.map (now, ·)) := by
  obtain ⟨_, _, ha, hk⟩ := asked_after cfg c now delay ev
  have hask : ∀ t0, t0 ≤ now → t0 ≤ c.asked → t0 ≤ (c.after cfg now delay ev).asked := by
    intro t0 h1 h2
    rcases hk with ⟨_, hk, _⟩ | ⟨_, hk, _⟩ <;> rw [hk] <;> assumption
  have hstop : c.auth.stop = true → (c.auth.step cfg ev).stop = true := fun h => by rw [stopped_step h]; exact h
  have hsleep : ∀ m, c.auth.task = some (.failSleep m) → ∀ t0, t0 ≤ c.asked → ev = .timer → t0 + 100000000 ≤ now := by
    intro m ht t0 h0 he
    rw [he] at hdue
    unfold GuardConn.due at hdue
    rw [ht] at hdue
    simp only [decide_eq_true_eq] at hdue
    omega
  constructor
  · refine ⟨?_, ?_, ?_⟩
    · intro x hx
      rcases List.mem_append.mp hx with hx | hx
      · exact h.past x hx
      · obtain ⟨e, _, rfl⟩ := List.mem_map.mp hx
        exact Nat.le_refl _
    · intro hw t0 p hx
      rw [ha] at hw
      rcases hk with ⟨hk0, hk, _⟩ | ⟨hk0, hk, _⟩
      · left
        rw [hk]
        rcases List.mem_append.mp hx with hx | hx
        · exact h.past _ hx
        · obtain ⟨e, _, he⟩ := List.mem_map.mp hx
          cases he
          exact Nat.le_refl _
      · rw [hk, ha]
        have hw0 : Undecided c.auth.task := by
          cases hm with
          | quiet ht hd hf =>
            rcases ht with ht | ⟨ht, _⟩
            · rw [← ht]; exact hw
            · rw [ht] at hw
              rcases hw with ⟨r, hw⟩ | hw
              · cases hw
              · exact absurd hw (Nat.lt_irrefl 0)
          | asked p dl d' ht he hd hd' h1 h2 =>
            rw [he] at hk0
            unfold GuardConn.asks at hk0
            rw [ht] at hk0
            cases hk0
          | woken r ht he hd h1 => exact .inl ⟨r, ht⟩
          | told r p a d' ht hd hd' h1 h2 h3 =>
            rcases hw with ⟨r', hw⟩ | hw
            · exact absurd hw (h1 r')
            · omega
          | home r k ht hd h1 h2 =>
            rcases hw with ⟨r', hw⟩ | hw
            · exact absurd hw (h1 r')
            · omega
        rcases List.mem_append.mp hx with hx | hx
        · rcases h.reqs hw0 t0 p hx with h1 | h1
          · exact .inl h1
          · exact .inr (hstop h1)
        · obtain ⟨e, he, he'⟩ := List.mem_map.mp hx
          cases he'
          obtain ⟨dl, hev⟩ := hm.received he
          right
          cases hs0 : c.auth.stop
          · rw [hev]; exact request_occupied hi hs0 (hw0.imp_right waiting_guessing) p dl
          · exact hstop hs0
    · intro l1 t0 p l2 he hw
      rw [ha]
      rcases split_more he with ⟨k, h1, h2⟩ | ⟨k, h1, h2⟩
      · have h0 : t0 ≤ now := h.past (t0, .received 50 p) (by rw [h1]; simp)
        obtain ⟨x, hx, hxw⟩ := hw
        rw [h2] at hx
        rcases List.mem_append.mp hx with hx | hx
        · rcases h.slow l1 t0 p k h1 ⟨x, hx, hxw⟩ with h3 | h3 | ⟨⟨m, h3⟩, h4⟩
          · exact .inl h3
          · exact .inr (.inl (hstop h3))
          · rcases hm.sleeping h3 with ⟨h5, _⟩ | h5
            · exact .inr (.inr ⟨⟨m, h5⟩, hask t0 h0 h4⟩)
            · exact .inl (hsleep m h3 t0 h4 h5)
        · obtain ⟨e, he, rfl⟩ := List.mem_map.mp hx
          obtain ⟨r, q, a, d', g1, g2, g3, g4, g5, g6⟩ := hm.verdict he (wrong_verdict hxw)
          have hok : a.ok = false := by
            change WrongVerdict e = true at hxw
            rw [g3] at hxw
            cases ho : a.ok
            · rfl
            · simp [WrongVerdict, ho] at hxw
          have hr := h.reqs (.inr g5) t0 p (by rw [h1]; simp)
          rcases hr with hr | hr
          · exact .inr (.inr ⟨(g6 hok).2, hask t0 h0 hr⟩)
          · exact .inr (.inl (hstop hr))
      · obtain ⟨d1, e, d2, g1, g2, g3, g4⟩ := split_map h2
        cases g3
        obtain ⟨x, hx, hxw⟩ := hw
        rw [g4] at hx
        obtain ⟨e, he, rfl⟩ := List.mem_map.mp hx
        obtain ⟨r, q, a, d', k1, k2, k3, k4, k5, k6⟩ := hm.verdict (e := e) (by rw [g1]; simp [he]) (wrong_verdict hxw)
        have hmem : AuthEntry.received 50 p ∈ d := by rw [g1]; simp
        rw [k2] at hmem
        rcases List.mem_cons.mp hmem with h5 | h5
        · cases h5
        · cases k4 _ h5
  · intro l1 t0 p l2 t m l3 he hw
    have he' : l ++ d.map (now, ·) = (l1 ++ (t0, .received 50 p) :: l2) ++ (t, .failure m) :: l3 := by rw [he]; simp
    rcases split_more he' with ⟨k, h1, h2⟩ | ⟨k, h1, h2⟩
    · exact hs l1 t0 p l2 t m k (by rw [h1]; simp) hw
    · obtain ⟨d1, e, d2, g1, g2, g3, g4⟩ := split_map h2
      cases g3
      have hmem : AuthEntry.failure m ∈ d := by rw [g1]; simp
      -- nothing wrong in `d1`
      have hd1 : ∀ x ∈ d1, WrongVerdict x = false := by
        intro x hx
        cases hxw : WrongVerdict x
        · rfl
        · obtain ⟨r, q, a, d', k1, k2, k3, k4, k5, k6⟩ := hm.verdict (e := x) (by rw [g1]; simp [hx]) (wrong_verdict hxw)
          have hok : a.ok = false := by
            rw [k3] at hxw
            cases ho : a.ok
            · rfl
            · simp [WrongVerdict, ho] at hxw
          rw [k2, (k6 hok).1] at hmem
          simp at hmem
      have hsp : l ++ d1.map (now, ·) = l1 ++ (t0, .received 50 p) :: l2 := by rw [h1, g2]
      obtain ⟨x, hx, hxw⟩ := hw
      rcases split_more hsp with ⟨k', h3, h4⟩ | ⟨k', h3, h4⟩
      · have hx' : x ∈ k' := by
          rw [h4] at hx
          rcases List.mem_append.mp hx with hx | hx
          · exact hx
          · obtain ⟨e, he, rfl⟩ := List.mem_map.mp hx
            rw [show WrongVerdict ((now, e) : Nat × AuthEntry).2 = WrongVerdict e from rfl, hd1 e he] at hxw
            cases hxw
        rcases h.slow l1 t0 p k' h3 ⟨x, hx', hxw⟩ with h5 | h5 | ⟨⟨m', h5⟩, h6⟩
        · exact h5
        · have := moved_stop hl h5
          rw [this] at hmem; cases hmem
        · rcases hm.sleeping h5 with ⟨_, h7⟩ | h7
          · cases h7 _ hmem
          · exact hsleep m' h5 t0 h6 h7
      · obtain ⟨e1, e, e2, k1, k2, k3, k4⟩ := split_map h4
        rw [k4] at hx
        obtain ⟨z, hz, rfl⟩ := List.mem_map.mp hx
        have := hd1 z (by rw [k1]; simp [hz])
        rw [show WrongVerdict ((now, z) : Nat × AuthEntry).2 = WrongVerdict z from rfl, this] at hxw
        cases hxw

/-- The delay of the request being processed. -/
theorem delay_step {acfg : AcctCfg} {cfg : AuthCfg} {c : GuardConn} {now : Nat} {ev : AuthEv} {log : List GuardEntry}
    {d : List AuthEntry} {da : List AcctEntry} (h : ConnDelay acfg now log c) (hdue : c.due now ev = true)
    (hdl : ∀ m p dl, ev = .packet m p dl → dl = decide (0 < delayAt acfg log c.client))
    (hch : ∀ x, Chronological (chargesOf (acctPart log) x)) (hm : Moved c.auth ev (c.auth.step cfg ev).task d) :
    ConnDelay acfg now (log ++ (d.map (.on c.id c.client now) ++ da.map .acct)) (c.after cfg now (delayAt acfg log c.client) ev) := by
  obtain ⟨h1, h2, h3, hk⟩ := asked_after cfg c now (delayAt acfg log c.client) ev
  have hE : timedOn c.id (d.map (.on c.id c.client now) ++ da.map .acct) = d.map (now, ·) := by
    rw [timedOn_append, timedOn_on, timedOn_acct, List.append_nil]
  have hno : (∀ e ∈ d, Verdict e = false) → ∀ x ∈ timedOn c.id (d.map (.on c.id c.client now) ++ da.map .acct), Verdict x.2 = false := by
    intro h x hx
    rw [hE] at hx
    obtain ⟨e, he, rfl⟩ := List.mem_map.mp hx
    exact h e he
  have hbusy : c.auth.task ≠ none → (c.after cfg now (delayAt acfg log c.client) ev).asked = c.asked ∧
      (c.after cfg now (delayAt acfg log c.client) ev).wake = c.wake := by
    intro hn
    rcases hk with ⟨hk, _⟩ | ⟨_, hk⟩
    · exfalso
      cases ev with
      | packet m p dl =>
        change (m == 50 && c.auth.task.isNone) = true at hk
        rw [Bool.and_eq_true, Option.isNone_iff_eq_none] at hk
        exact hn hk.2
      | _ => cases hk
    · exact hk
  unfold ConnDelay
  rw [h1, h2, h3]
  intro hw
  cases hm with
  | quiet ht hd hf =>
    rcases ht with ht | ⟨ht, _⟩
    · rw [ht] at hw ⊢
      obtain ⟨a1, g1, g2, g3⟩ := h hw
      have hn : c.auth.task ≠ none := by
        intro hn
        rw [hn] at hw
        rcases hw with ⟨r, hw⟩ | hw
        · cases hw
        · exact absurd hw (Nat.lt_irrefl 0)
      obtain ⟨k1, k2⟩ := hbusy hn
      rw [k1, k2]
      refine ⟨a1, requestedAt_more g1 (hno ?_), g2, g3⟩
      intro e he
      cases hv : Verdict e
      · rfl
      · obtain ⟨m, p, dl, h5, _⟩ := hd e he (by cases e <;> first | rfl | cases hv)
        rw [h5] at hv; cases hv
    · rw [ht] at hw
      rcases hw with ⟨r, hw⟩ | hw
      · cases hw
      · exact absurd hw (Nat.lt_irrefl 0)
  | asked p dl d' ht he hd hd' g1 g2 =>
    have hasks : c.asks ev = true := by
      rw [he]
      show ((50 : UInt8) == 50 && c.auth.task.isNone) = true
      rw [ht]; rfl
    rcases hk with ⟨_, k1, k2⟩ | ⟨k0, _⟩
    · rw [k1, k2]
      refine ⟨log, ⟨p, d'.map (.on c.id c.client now) ++ da.map .acct, by rw [hd]; simp, ?_⟩, ⟨hch, Nat.le_refl _⟩, ?_⟩
      · intro e he
        unfold onConnection at he
        rw [timedOn_append, timedOn_on, timedOn_acct, List.append_nil, List.map_map] at he
        obtain ⟨x, hx, rfl⟩ := List.mem_map.mp he
        exact account_verdict (hd' x hx)
      · intro hg
        have := hdl 50 p dl he
        rw [g2 hg] at this
        have := of_decide_eq_false this.symm
        omega
    · rw [k0] at hasks; cases hasks
  | woken r ht he hd g1 =>
    obtain ⟨a1, k1, k2, _⟩ := h (.inl ⟨r, ht⟩)
    obtain ⟨k3, k4⟩ := hbusy (by rw [ht]; exact Option.some_ne_none _)
    rw [k3, k4]
    refine ⟨a1, requestedAt_more k1 (hno fun e he => account_verdict (hd e he)), k2, fun _ => ?_⟩
    rw [he] at hdue
    unfold GuardConn.due at hdue
    rw [ht] at hdue
    simpa using hdue
  | told r p a d' ht hd hd' g1 g2 g3 =>
    rcases hw with ⟨r', hw⟩ | hw
    · exact absurd hw (g1 r')
    · omega
  | home r k ht hd g1 g2 =>
    rcases hw with ⟨r', hw⟩ | hw
    · exact absurd hw (g1 r')
    · omega

/-- Nothing happens on the connection. -/
theorem connDelay_other {acfg : AcctCfg} {now now' : Nat} {log e : List GuardEntry} {c : GuardConn} (h : ConnDelay acfg now log c)
    (hn : now ≤ now') (he : timedOn c.id e = []) : ConnDelay acfg now' (log ++ e) c := by
  intro hw
  obtain ⟨a1, g1, g2, g3⟩ := h hw
  exact ⟨a1, requestedAt_more g1 (by rw [he]; intro x hx; cases hx), g2, fun hg => Nat.le_trans (g3 hg) hn⟩

theorem connTimes_later {now now' : Nat} {c : GuardConn} {l : List (Nat × AuthEntry)} (h : ConnTimes now c l) (hn : now ≤ now') :
    ConnTimes now' c l := by
  refine ⟨fun x hx => Nat.le_trans (h.past x hx) hn, h.reqs, ?_⟩
  intro l1 t0 p l2 h1 h2
  rcases h.slow l1 t0 p l2 h1 h2 with h3 | h3
  · exact .inl (Nat.le_trans h3 hn)
  · exact .inr h3

theorem inv_serve {acfg : AcctCfg} {cfg : Nat → AuthCfg} {g : Guard} (h : GuardInv acfg cfg g) {c : GuardConn} (hc : c ∈ g.conns)
    {ev : AuthEv} (hdue : c.due g.acct.now ev = true)
    (hdl : ∀ m p dl, ev = .packet m p dl → dl = decide (0 < g.acct.delayOf c.client)) :
    GuardInv acfg cfg (g.serve acfg (cfg c.id) c ev) := by
  obtain ⟨a, ha, ha1, ha2⟩ := h.have_ c hc
  have hi := h.auth c hc
  obtain ⟨w, _, d, hd, hb⟩ := book_step hi ev
  obtain ⟨d0, hd0, hm⟩ := moved_step hi ev
  have : d0 = d := List.append_cancel_left (hd0.symm.trans hd)
  subst this
  obtain ⟨k1, k2, k3, k4, da, k5, k6⟩ := charge_all (c.auth.tally (cfg c.id) ev) h.acct ha
  rw [ha1] at k1 k2 k3 k4 k5
  rw [ha2] at k6
  rw [delayOf_eq h.acct h.part] at hdl
  obtain ⟨j1, j2, j3, _⟩ := asked_after (cfg c.id) c g.acct.now (delayAt acfg g.log c.client) ev
  have hlog : (g.serve acfg (cfg c.id) c ev).log = g.log ++ (d0.map (.on c.id c.client g.acct.now) ++ da.map .acct) := by
    show g.log ++ (((c.after _ _ _ ev).auth.log.drop c.auth.log.length).map _ ++ _) = _
    rw [delayOf_eq h.acct h.part, j3, hd, k5]
    simp
  have hacct : (g.serve acfg (cfg c.id) c ev).acct = g.acct.chargeAll acfg c.id (c.auth.tally (cfg c.id) ev) := rfl
  have hconns : (g.serve acfg (cfg c.id) c ev).conns = g.conns.map fun x => bif x.id == c.id then
      c.after (cfg c.id) g.acct.now (delayAt acfg g.log c.client) ev else x := by
    rw [← delayOf_eq h.acct h.part]; rfl
  generalize g.serve acfg (cfg c.id) c ev = g' at hlog hacct hconns ⊢
  generalize hc' : c.after (cfg c.id) g.acct.now (delayAt acfg g.log c.client) ev = c' at hconns j1 j2 j3
  have hlt : c.id < g.acct.nextId := by rw [← ha1]; exact h.acct.shape.lt a ha
  have hown : timedOn c.id g'.log = timedOn c.id g.log ++ d0.map (g.acct.now, ·) := by
    rw [hlog, timedOn_append, timedOn_append, timedOn_on, timedOn_acct, List.append_nil]
  have hoth0 : ∀ id, id ≠ c.id → timedOn id (d0.map (.on c.id c.client g.acct.now) ++ da.map .acct) = [] := by
    intro id hid
    rw [timedOn_append, timedOn_other (Ne.symm hid), timedOn_acct]; rfl
  have hoth : ∀ id, id ≠ c.id → timedOn id g'.log = timedOn id g.log := by
    intro id hid
    rw [hlog, timedOn_append, hoth0 id hid, List.append_nil]
  have hmem : ∀ x ∈ g'.conns, x = c' ∨ (x ∈ g.conns ∧ x.id ≠ c.id) := by
    intro x hx
    rw [hconns] at hx
    obtain ⟨y, hy, rfl⟩ := List.mem_map.mp hx
    by_cases he : y.id = c.id
    · left; rw [beq_iff_eq.mpr he]; rfl
    · right; rw [beq_eq_false_iff_ne.mpr he]; exact ⟨hy, he⟩
  have hnow : g'.acct.now = g.acct.now := by rw [hacct, k4]
  have hts := times_step (delay := delayAt acfg g.log c.client) hi (h.times c hc) (h.slow c.id) hdue hd hm
  rw [hc'] at hts
  have hde := delay_step (da := da) (h.delay c hc) hdue hdl (fun x => by rw [h.part]; exact (h.acct.chron x).1) hm
  rw [hc'] at hde
  refine ⟨by rw [hacct]; exact k1, ?_, ?_, ?_, ?_, ?_, ?_, ?_, ?_, ?_, ?_, ?_⟩
  · rw [hlog, hacct, k5, acctPart_append, acctPart_append, acctPart_on, acctPart_acct, h.part]; rfl
  · rw [pairwise_ids, hconns, ids_replace j1, ← pairwise_ids]; exact h.uniq
  · intro id hid
    rw [hacct, k3] at hid
    rw [hoth id (by omega)]
    exact h.fresh id hid
  · intro x hx
    rw [hacct, k2]
    rcases hmem x hx with rfl | ⟨hx, _⟩
    · exact ⟨a, ha, by rw [ha1, j1], by rw [ha2, j2]⟩
    · exact h.have_ x hx
  · intro x hx
    rcases hmem x hx with rfl | ⟨hx, _⟩
    · rw [j1, j3]; exact inv_authStep hi ev
    · exact h.auth x hx
  · intro x hx
    rcases hmem x hx with rfl | ⟨hx, hne⟩
    · have := h.own c hc
      unfold onConnection at this ⊢
      rw [j1, j3, hown, List.map_append, this, hd, List.map_map]
      simp [Function.comp_def]
    · unfold onConnection
      rw [hoth x.id hne]
      exact h.own x hx
  · intro x hx
    rw [hnow]
    rcases hmem x hx with rfl | ⟨hx, hne⟩
    · rw [j1, hown]; exact hts.1
    · rw [hoth x.id hne]; exact h.times x hx
  · intro x hx
    rw [hnow, hlog]
    rcases hmem x hx with rfl | ⟨hx, hne⟩
    · exact hde
    · exact connDelay_other (h.delay x hx) (Nat.le_refl _) (hoth0 _ hne)
  · rw [hlog]
    refine eachPrev_more h.verd ?_
    intro e1 x e2 he
    cases x with
    | acct e => trivial
    | on id client t e =>
      intro hv
      rcases List.append_eq_append_iff.mp he with ⟨k, h1, h2⟩ | ⟨k, h1, h2⟩
      · exfalso
        have : GuardEntry.on id client t e ∈ da.map GuardEntry.acct := by rw [h2]; simp
        obtain ⟨y, _, hy⟩ := List.mem_map.mp this
        cases hy
      · cases k with
        | nil =>
          exfalso
          have : GuardEntry.on id client t e ∈ da.map GuardEntry.acct := by
            simp only [List.nil_append] at h2
            rw [← h2]; simp
          obtain ⟨y, _, hy⟩ := List.mem_map.mp this
          cases hy
        | cons y k =>
          simp only [List.cons_append, List.cons.injEq] at h2
          obtain ⟨d1, e', d2, g1, g2, g3, g4⟩ := split_map h1
          rw [← h2.1] at g3
          cases g3
          obtain ⟨r, q, ac, d', m1, m2, m3, m4, m5, _⟩ := hm.verdict (e := e) (by rw [g1]; simp) hv
          have hd1 : d1 = [] := by
            cases d1 with
            | nil => rfl
            | cons z d1 =>
              rw [m2] at g1
              simp only [List.cons_append, List.cons.injEq] at g1
              have : e ∈ d' := by rw [g1.2]; simp
              have := account_verdict (m4 e this)
              rw [hv] at this; cases this
          obtain ⟨a1, n1, n2, n3⟩ := h.delay c hc (.inr m5)
          refine ⟨a1, c.asked, ?_, n2.chron, Nat.le_trans n2.over (n3 m5)⟩
          rw [g2, hd1]
          simpa using n1
  · intro id
    by_cases hid : id = c.id
    · rw [hid, hown]; exact hts.2
    · rw [hoth id hid]; exact h.slow id
  · intro client
    have hp := h.pay client
    have hs := sum_replace (fun c => if c.client = some client then guessing c.auth.task else 0) h.uniq (c' := c') hc
    change pendingOf client (g.conns.map fun x => bif x.id == c.id then c' else x) + _ = pendingOf client g.conns + _ at hs
    rw [← hconns, j2, j3] at hs
    rw [hlog]
    simp only [guesses_append, wrongGuesses_append, attempted_append, spent_append, guesses_on, guesses_acct, wrongGuesses_on,
      wrongGuesses_acct, attempted_on, spent_on, (k6 client).1, (k6 client).2]
    have hpay := hb.pay
    by_cases hcl : c.client = some client
    · simp only [hcl, if_true, oneToken] at hs hp hpay ⊢
      omega
    · simp only [hcl, if_false, oneToken] at hs hp hpay ⊢
      omega

theorem inv_listener {acfg : AcctCfg} {cfg : Nat → AuthCfg} {g : Guard} (h : GuardInv acfg cfg g) {ev : AcctEv}
    (hev : ∀ i n, ev ≠ .charge i n) : GuardInv acfg cfg (g.listener acfg ev) := by
  obtain ⟨da, hs⟩ := acctStep_step h.acct ev hev
  have hi := inv_acct_step h.acct ev
  have hlog : (g.listener acfg ev).log = g.log ++ da.map .acct := by
    show g.log ++ ((g.acct.step acfg ev).log.drop g.acct.log.length).map .acct = _
    rw [hs.log]; simp
  have hacct : (g.listener acfg ev).acct = g.acct.step acfg ev := rfl
  have hconns : (g.listener acfg ev).conns = (g.conns.filter fun x => (g.acct.step acfg ev).conns.any fun c => c.id == x.id) ++
      ((g.acct.step acfg ev).conns.filter fun c => !c.delayed && decide (g.acct.nextId ≤ c.id)).map
        fun c => { id := c.id, client := c.client } := rfl
  generalize g.listener acfg ev = g' at hlog hacct hconns ⊢
  generalize g.acct.step acfg ev = s' at hs hi hacct hconns
  have hall : ∀ id, timedOn id g'.log = timedOn id g.log := by
    intro id
    rw [hlog, timedOn_append, timedOn_acct, List.append_nil]
  have hlt : ∀ c ∈ g.conns, c.id < g.acct.nextId := by
    intro c hc
    obtain ⟨a, h1, h2, _⟩ := h.have_ c hc
    rw [← h2]; exact h.acct.shape.lt a h1
  have hmem : ∀ x ∈ g'.conns, (x ∈ g.conns ∧ ∃ a ∈ s'.conns, a.id = x.id) ∨
      ∃ a ∈ s'.conns, g.acct.nextId ≤ a.id ∧ x = { id := a.id, client := a.client } := by
    intro x hx
    rw [hconns] at hx
    rcases List.mem_append.mp hx with hx | hx
    · left
      obtain ⟨h1, h2⟩ := List.mem_filter.mp hx
      obtain ⟨a, h3, h4⟩ := List.any_eq_true.mp h2
      exact ⟨h1, a, h3, beq_iff_eq.mp h4⟩
    · right
      obtain ⟨a, h1, rfl⟩ := List.mem_map.mp hx
      obtain ⟨h2, h3⟩ := List.mem_filter.mp h1
      rw [Bool.and_eq_true, decide_eq_true_eq] at h3
      exact ⟨a, h2, h3.2, rfl⟩
  refine ⟨by rw [hacct]; exact hi, ?_, ?_, ?_, ?_, ?_, ?_, ?_, ?_, ?_, ?_, ?_⟩
  · rw [hlog, hacct, hs.log, acctPart_append, acctPart_acct, h.part]
  · rw [hconns, List.pairwise_append]
    refine ⟨h.uniq.sublist List.filter_sublist, ?_, ?_⟩
    · rw [List.pairwise_map]
      exact hi.shape.ids.sublist List.filter_sublist
    · intro x hx y hy
      have h1 := hlt x (List.mem_filter.mp hx).1
      obtain ⟨a, h2, rfl⟩ := List.mem_map.mp hy
      have h3 := (List.mem_filter.mp h2).2
      rw [Bool.and_eq_true, decide_eq_true_eq] at h3
      show x.id ≠ a.id
      omega
  · intro id hid
    rw [hall]
    rw [hacct] at hid
    exact h.fresh id (Nat.le_trans hs.next hid)
  · intro x hx
    rw [hacct]
    rcases hmem x hx with ⟨h1, a, h2, h3⟩ | ⟨a, h1, _, rfl⟩
    · refine ⟨a, h2, h3, ?_⟩
      obtain ⟨b, h4, h5, h6⟩ := h.have_ x h1
      rcases hs.conns a h2 with h7 | h7
      · rw [conn_unique h.acct.shape h7 h4 (h3.trans h5.symm)]; exact h6
      · have := hlt x h1
        omega
    · exact ⟨a, h1, rfl, rfl⟩
  · intro x hx
    rcases hmem x hx with ⟨h1, _⟩ | ⟨a, h1, _, rfl⟩
    · exact h.auth x h1
    · exact inv_init _
  · intro x hx
    unfold onConnection
    rw [hall]
    rcases hmem x hx with ⟨h1, _⟩ | ⟨a, h1, h2, rfl⟩
    · exact h.own x h1
    · rw [h.fresh a.id h2]; rfl
  · intro x hx
    rw [hall, hacct]
    rcases hmem x hx with ⟨h1, _⟩ | ⟨a, h1, h2, rfl⟩
    · exact connTimes_later (h.times x h1) hs.now
    · rw [h.fresh a.id h2]
      refine ⟨by simp, by simp, ?_⟩
      intro l1 t0 p l2 he
      simp at he
  · intro x hx
    rw [hlog, hacct]
    rcases hmem x hx with ⟨h1, _⟩ | ⟨a, h1, h2, rfl⟩
    · exact connDelay_other (h.delay x h1) hs.now (timedOn_acct _ _)
    · rintro (⟨r, hw⟩ | hw)
      · cases hw
      · exact absurd hw (Nat.lt_irrefl 0)
  · rw [hlog]
    refine eachPrev_more h.verd ?_
    intro e1 x e2 he
    have : x ∈ da.map GuardEntry.acct := by rw [he]; simp
    obtain ⟨y, _, rfl⟩ := List.mem_map.mp this
    trivial
  · intro id; rw [hall]; exact h.slow id
  · intro client
    have hp := h.pay client
    have hq := hs.pay client
    have hle : pendingOf client g'.conns ≤ pendingOf client g.conns := by
      unfold pendingOf
      rw [hconns, List.map_append, List.sum_append]
      have h1 := sum_filter_le (fun c : GuardConn => if c.client = some client then guessing c.auth.task else 0)
        (fun x => s'.conns.any fun c => c.id == x.id) g.conns
      have h2 : ((((s'.conns.filter fun c => !c.delayed && decide (g.acct.nextId ≤ c.id)).map
          fun c => ({ id := c.id, client := c.client } : GuardConn))).map
          fun c : GuardConn => if c.client = some client then guessing c.auth.task else 0).sum = 0 := by
        generalize s'.conns.filter _ = l
        induction l with
        | nil => rfl
        | cons x l ih =>
          simp only [List.map_cons, List.sum_cons, ih, Nat.add_zero]
          split <;> rfl
      omega
    rw [hlog]
    simp only [guesses_append, wrongGuesses_append, attempted_append, spent_append, guesses_acct, wrongGuesses_acct, oneToken] at hp hq ⊢
    omega

theorem due_delayedBy (c : GuardConn) (now n : Nat) (ev : AuthEv) : c.due now (ev.delayedBy n) = c.due now ev := by
  cases ev <;> rfl

theorem inv_guardStep {acfg : AcctCfg} {cfg : Nat → AuthCfg} {g : Guard} (h : GuardInv acfg cfg g) (ev : GuardEv) :
    GuardInv acfg cfg (g.step acfg cfg ev) := by
  cases ev with
  | acct ev =>
    by_cases hev : ∃ i n, ev = .charge i n
    · obtain ⟨i, n, rfl⟩ := hev
      exact h
    · have : g.step acfg cfg (.acct ev) = g.listener acfg ev := by
        cases ev with
        | charge i n => exact absurd ⟨i, n, rfl⟩ hev
        | _ => rfl
      rw [this]
      exact inv_listener h fun i n he => hev ⟨i, n, he⟩
  | conn id ev =>
    show GuardInv acfg cfg (match g.conns.find? (·.id == id) with
      | none => g
      | some c => bif c.due g.acct.now ev then g.serve acfg (cfg c.id) c (ev.delayedBy (g.acct.delayOf c.client)) else g)
    cases hf : g.conns.find? (·.id == id) with
    | none => exact h
    | some c =>
      simp only
      cases hd : c.due g.acct.now ev
      · exact h
      · refine inv_serve h (List.mem_of_find?_eq_some hf) (by rw [due_delayedBy]; exact hd) ?_
        intro m p dl he
        cases ev with
        | packet m' p' dl' =>
          change AuthEv.packet m' p' (decide _) = _ at he
          cases he; rfl
        | _ => cases he

theorem inv_guardRun (acfg : AcctCfg) (cfg : Nat → AuthCfg) (evs : List GuardEv) : GuardInv acfg cfg (Guard.run acfg cfg {} evs) := by
  induction evs using Aux.snoc_ind with
  | h0 =>
    refine ⟨inv_acct acfg [], rfl, .nil, fun _ _ => rfl, ?_, ?_, ?_, ?_, ?_, eachPrev_nil _, ?_, ?_⟩
    · intro c hc; cases hc
    · intro c hc; cases hc
    · intro c hc; cases hc
    · intro c hc; cases hc
    · intro c hc; cases hc
    · intro id l1 t0 p l2 t m l3 he
      simp [Guard.run, timedOn] at he
    · intro client; exact Nat.le_refl _
  | h1 evs ev ih =>
    rw [show Guard.run acfg cfg {} (evs ++ [ev]) = (Guard.run acfg cfg {} evs).step acfg cfg ev by simp [Guard.run]]
    exact inv_guardStep ih ev

end Lukko
