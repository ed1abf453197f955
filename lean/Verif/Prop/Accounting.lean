import Verif.Proof.AccountingIdle
/-
  C45: throttling delays are bounded and decay.
  C46: connection limits and exact accounting.
-/
namespace Lukko
open Model Spec

/-! ## C45 -/

/-- A client which connects `n` times at once, and again after `d`. -/
def demoBurst (n d : Nat) : List AcctEv :=
  .tick 20000000000 :: List.replicate n (.accept (some [1]) true) ++ [.tick d, .accept (some [1]) true]

/-- The delays of admitted connections. -/
def delays (log : List AcctEntry) : List Nat := log.filterMap fun | .opened _ _ d => some d | _ => none

/-- **C45.** Whatever happened before, a new connection is delayed by a multiple of 100 ms, at most
one minute. -/
theorem C45_bounded (cfg : AcctCfg) (evs : List AcctEv) {a b : List AcctEntry} {id : Nat} {c : Option Bytes} {d : Nat}
    (h : (Acct.run cfg {} evs).log = a ++ .opened id c d :: b) : d ≤ oneMinute ∧ ∃ k, d = k * delayUnit := by
  have := (inv_acct cfg evs).prev a _ b h
  cases c with
  | none =>
    have hd : d = 0 := this
    subst hd
    exact ⟨Nat.zero_le _, 0, by simp⟩
  | some c =>
    obtain ⟨_, hd, _⟩ := this
    have hk : ∃ k ≤ 600, d = k * delayUnit := by
      rw [hd]
      split
      · exact throttle_delay _
      · exact ⟨0, by omega, rfl⟩
    obtain ⟨k, hk, rfl⟩ := hk
    exact ⟨by simp only [oneMinute, delayUnit]; omega, k, rfl⟩

example : delays (Acct.run { tarpit := true } {} (demoBurst 11 0)).log =
    [0, 0, 0, 0, 0, 0, 0, 0, 0, 0, 100000000, 200000000] := by decide +kernel

/-- **C45.** The same holds at any time for the delay of a known client (applied to authentication). -/
theorem C45_bounded_always (cfg : AcctCfg) (evs : List AcctEv) {e : PerClient} (h : e ∈ (Acct.run cfg {} evs).entries) :
    e.throttle.delay ≤ oneMinute ∧ ∃ k, e.throttle.delay = k * delayUnit := by
  have hk : ∃ k ≤ 600, e.throttle.delay = k * delayUnit := by
    rw [(inv_acct cfg evs).thr e h]
    split
    · exact throttle_delay _
    · exact ⟨0, by omega, rfl⟩
  obtain ⟨k, hk, hd⟩ := hk
  exact ⟨by rw [hd]; simp only [oneMinute, delayUnit]; omega, k, hd⟩

example : (Acct.run { tarpit := true } {} (demoBurst 11 0)).entries.map (·.throttle.delay) = [200000000] := by decide +kernel

/-- **C45.** Even if the token bucket gives arbitrary answers, one event makes the delay grow by
at most one step. -/
theorem C45_one_step (s : Throttle) (now : Nat) (available : Int) : (s.after now available).delay ≤ s.delay + delayUnit := by
  unfold Throttle.after
  split
  · simp only [delayStep, delayUnit]; split <;> omega
  · split
    · simp only [delayStep, delayUnit]; split <;> omega
    · exact Nat.zero_le _

example : (({} : Throttle).after 7 (-1)).delay = 100000000 := by decide

/-- **C45.** The delay grows exactly if the client is over its budget (unless the delay is at its
maximum). -/
theorem C45_grows {h : List (Nat × Nat)} {t c : Nat} (hc : Chronological (h ++ [(t, c)])) :
    (Throttle.run {} h).delay < (Throttle.run {} (h ++ [(t, c)])).delay ↔
      OverBudget (h ++ [(t, c)]) ∧ (Throttle.run {} h).delay < oneMinute := by
  rw [← available_iff hc, throttle_snoc]
  simp only [Throttle.update, Throttle.after]
  by_cases hb : (Throttle.run {} h).bucket.available t c < 0
  · rw [if_pos hb]
    simp only [hb, true_and, maxDelay, oneMinute, delayStep]
    split <;> omega
  · rw [if_neg hb]
    simp only [hb, false_and, iff_false]
    split
    · simp only [delayStep]; split <;> omega
    · exact Nat.not_lt_zero _

example : Chronological ([(0, 5)] ++ [(1, 20)]) ∧ OverBudget ([(0, 5)] ++ [(1, 20)]) :=
  ⟨by unfold Chronological; decide, .inr (by decide)⟩

/-- **C45.** Whoever is delayed has exceeded the budget less than a minute ago. -/
theorem C45_deserved (cfg : AcctCfg) (evs : List AcctEv) {a b : List AcctEntry} {id : Nat} {c : Bytes} {d : Nat}
    (h : (Acct.run cfg {} evs).log = a ++ .opened id (some c) d :: b) (hd : 0 < d) :
    cfg.tarpit = true ∧ ∃ p, p <+: chargesOf a c ∧ OverBudget p ∧ lastTime (chargesOf a c) < lastTime p + oneMinute := by
  have := (inv_acct cfg evs).prev a _ b h
  obtain ⟨_, he, hc⟩ := this
  cases ht : cfg.tarpit
  · simp only [ht, Bool.false_eq_true, if_false] at he
    omega
  · simp only [ht, if_true] at he
    rw [he] at hd
    exact ⟨rfl, throttle_deserved hc hd⟩

example : .opened 10 (some [1]) 100000000 ∈ (Acct.run { tarpit := true } {} (demoBurst 11 0)).log := by decide +kernel

/-- **C45.** A client which has paid off everything it was ever charged for, and was quiet for a
minute, is not delayed any more. -/
theorem C45_recovers {h : List (Nat × Nat)} {t c : Nat} (hc : Chronological (h ++ [(t, c)])) (hq : lastTime h + oneMinute ≤ t)
    (hp : lastTime h + totalCost h ≤ t) (hb : totalCost h + c ≤ t) (hcost : c ≤ tokenBurst) :
    (Throttle.run {} (h ++ [(t, c)])).delay = 0 := by
  have hno : ¬ OverBudget (h ++ [(t, c)]) := by
    rintro (⟨a, t', c', b, e, hx⟩ | hx)
    · rw [lastTime_snoc] at hx
      rcases Aux.snoc_split e with ⟨rfl, rfl, e'⟩ | ⟨b', rfl, rfl⟩
      · obtain ⟨rfl, rfl⟩ := Prod.mk.inj e'
        rw [totalCost_one] at hx
        omega
      · rw [← List.cons_append, totalCost_append, totalCost_one] at hx
        rw [totalCost_append] at hp
        have : t' ≤ lastTime (a ++ (t', c') :: b') := by
          rcases Aux.snoc_cases b' with rfl | ⟨b, x, rfl⟩
          · rw [lastTime_snoc]; exact Nat.le_refl _
          · rw [show a ++ (t', c') :: (b ++ [x]) = (a ++ (t', c') :: b) ++ [x] by simp, lastTime_snoc]
            have h1 := (chron_snoc hc).1
            rw [show a ++ (t', c') :: (b ++ [x]) = (a ++ (t', c') :: b) ++ [x] by simp] at h1
            exact (chron_snoc h1).2 (t', c') (by simp)
        simp only [tokenBurst] at *
        omega
    · rw [lastTime_snoc, totalCost_append, totalCost_one] at hx
      omega
  refine Classical.byContradiction fun hd => ?_
  obtain ⟨p, h1, h2, h3⟩ := throttle_deserved hc (Nat.pos_of_ne_zero hd)
  rw [lastTime_snoc] at h3
  rcases List.prefix_concat_iff.mp h1 with rfl | h1
  · exact hno h2
  · have := lastTime_prefix h1 (chron_snoc hc).1
    omega

example : delays (Acct.run { tarpit := true } {} (demoBurst 12 60000000000)).log =
    [0, 0, 0, 0, 0, 0, 0, 0, 0, 0, 100000000, 200000000, 0] := by decide +kernel

/-! ## C46 -/

/-- **C46.** The recorded number of connections of every known client is the number of its existing
connections, and nothing is used after it was freed. -/
theorem C46_exact (cfg : AcctCfg) (evs : List AcctEv) {s : Acct} (hs : s = Acct.run cfg {} evs) :
    s.crashed = false ∧ (∀ e ∈ s.entries, e.conns.length = liveCount s.log e.addr) ∧
    ∀ a, 0 < liveCount s.log a → ∃ e ∈ s.entries, e.addr = a := by
  subst hs
  have h := inv_acct cfg evs
  refine ⟨h.shape.ok, fun e he => entry_count h he, fun a ha => ?_⟩
  rw [liveCount_eq h.live] at ha
  obtain ⟨c, hc⟩ := List.exists_mem_of_length_pos ha
  obtain ⟨h1, h2⟩ := List.mem_filter.mp hc
  exact h.shape.have_ c h1 a (by simpa using h2)

def demoLimit : List AcctEv :=
  [.accept (some [1]) true, .accept (some [1]) true, .accept (some [2]) true, .accept (some [1]) true, .close 0, .accept (some [1]) true]

example : (Acct.run { maxConnections := 2 } {} demoLimit).entries.map (fun e => (e.addr, e.conns)) = [([1], [1, 3]), ([2], [2])] ∧
    liveCount (Acct.run { maxConnections := 2 } {} demoLimit).log [1] = 2 := by decide +kernel

/-- **C46.** A new connection is admitted only below the limit, and turned away only at the limit. -/
theorem C46_admitted (cfg : AcctCfg) (evs : List AcctEv) (hm : 0 < cfg.maxConnections) {a b : List AcctEntry} {c : Bytes} :
    (∀ id d, (Acct.run cfg {} evs).log = a ++ .opened id (some c) d :: b → liveCount a c < cfg.maxConnections) ∧
    ((Acct.run cfg {} evs).log = a ++ .rejected c :: b → cfg.maxConnections ≤ liveCount a c) := by
  refine ⟨fun id d h => ?_, fun h => ?_⟩
  · obtain ⟨h1 | h1, _⟩ := (inv_acct cfg evs).prev a _ b h
    · omega
    · exact h1
  · exact ((inv_acct cfg evs).prev a _ b h).2

example : .rejected [1] ∈ (Acct.run { maxConnections := 2 } {} demoLimit).log ∧
    .opened 3 (some [1]) 0 ∈ (Acct.run { maxConnections := 2 } {} demoLimit).log := by decide +kernel

/-- **C46.** Without a limit nobody is turned away. -/
theorem C46_unlimited (cfg : AcctCfg) (evs : List AcctEv) (hm : cfg.maxConnections = 0) (c : Bytes) :
    .rejected c ∉ (Acct.run cfg {} evs).log := by
  intro hmem
  obtain ⟨a, b, h⟩ := List.append_of_mem hmem
  have := ((inv_acct cfg evs).prev a _ b h).1
  omega

example : .rejected [1] ∈ (Acct.run { maxConnections := 2 } {} demoLimit).log ∧
    .rejected [1] ∉ (Acct.run { maxConnections := 0, tarpit := true } {} demoLimit).log := by decide +kernel

/-- **C46.** At no time has a client more connections than the limit. -/
theorem C46_limit (cfg : AcctCfg) (evs : List AcctEv) (hm : 0 < cfg.maxConnections) {a b : List AcctEntry} (c : Bytes)
    (h : (Acct.run cfg {} evs).log = a ++ b) : liveCount a c ≤ cfg.maxConnections := by
  induction a using Aux.snoc_ind generalizing b with
  | h0 => exact Nat.zero_le _
  | h1 a e ih =>
    have h' : (Acct.run cfg {} evs).log = a ++ e :: b := by rw [h]; simp
    have ih := ih h'
    have hcount : ∀ l : List (Nat × Option Bytes), ∀ old : Nat, ∀ new : Nat,
        (l.filter (fun c => c.1 ≠ old) ++ (l.filter (fun c => c.1 = old)).map (fun c => (new, c.2))).countP (·.2 = some c) =
        l.countP (·.2 = some c) := by
      intro l old new
      induction l with
      | nil => rfl
      | cons x l ihl =>
        rw [List.countP_append] at ihl ⊢
        simp only [ne_eq] at ihl
        by_cases hx : x.1 = old
        · simp only [List.filter_cons, hx, ne_eq, not_true_eq_false, decide_false, Bool.false_eq_true, if_false, decide_true, if_true,
            List.map_cons, List.countP_cons]
          omega
        · simp only [List.filter_cons, hx, ne_eq, not_false_eq_true, decide_true, if_true, decide_false, Bool.false_eq_true, if_false,
            List.countP_cons]
          omega
    unfold liveCount at ih ⊢
    rw [live_snoc]
    cases e with
    | opened id cl d =>
      simp only [liveStep, List.countP_append, List.countP_singleton]
      by_cases hcl : cl = some c
      · subst hcl
        have := (C46_admitted cfg evs hm).1 id d h'
        unfold liveCount at this
        simp only [decide_true, if_true]
        omega
      · simp only [hcl, decide_false, Bool.false_eq_true, if_false]
        exact ih
    | promoted old new =>
      simp only [liveStep]
      rw [hcount]
      exact ih
    | closed id cl t =>
      exact Nat.le_trans (List.Sublist.countP_le List.filter_sublist) ih
    | charged _ _ _ => exact ih
    | rejected _ => exact ih
    | failed _ => exact ih
    | discarded _ _ => exact ih

example : liveCount (Acct.run { maxConnections := 2 } {} demoLimit).log [1] = 2 := by decide +kernel

/-- **C46.** A client is forgotten only while it has no connection, and five minutes after the
last one was closed. -/
theorem C46_kept (cfg : AcctCfg) (evs : List AcctEv) {a b : List AcctEntry} {c : Bytes} {t : Nat}
    (h : (Acct.run cfg {} evs).log = a ++ .discarded c t :: b) :
    liveCount a c = 0 ∧ ∀ id t', .closed id (some c) t' ∈ a → t' + 5 * oneMinute ≤ t := by
  obtain ⟨h1, h2⟩ := (inv_acct cfg evs).prev a _ b h
  exact ⟨h1, fun id t' ht => by have := h2 id t' ht; simp only [oneMinute]; omega⟩

/-- One connection, closed; the timer fires every minute. -/
def demoForget : List AcctEv :=
  [.accept (some [1]) true, .close 0] ++ (List.replicate 5 [.tick 60000000000, .cleanup]).flatten

example : .discarded [1] 300000000000 ∈ (Acct.run { maxConnections := 2 } {} demoForget).log := by decide +kernel

/-- **C46 (partial).** If setting up a connection never fails and the cleanup timer is on time, then
every client that is not yet forgotten has a connection, or had one in the last six minutes. -/
theorem C46_forgotten_partial (cfg : AcctCfg) (evs : List AcctEv) (ht : OnTime cfg evs)
    (hf : ∀ c, .failed c ∉ (Acct.run cfg {} evs).log) {c : Bytes} (hc : chargesOf (Acct.run cfg {} evs).log c ≠ []) :
    0 < liveCount (Acct.run cfg {} evs).log c ∨
    ∃ id t, .closed id (some c) t ∈ (Acct.run cfg {} evs).log ∧ (Acct.run cfg {} evs).now ≤ t + 6 * oneMinute := by
  have h := inv_acct cfg evs
  have hi := idle_acct cfg evs fun x hx => by
    cases x with
    | failed c => exact absurd hx (hf c)
    | _ => rfl
  have hn := onTime_now ht
  have : ∃ e ∈ (Acct.run cfg {} evs).entries, e.addr = c := Classical.byContradiction fun hx => hc (h.forgot c hx)
  obtain ⟨e, he, rfl⟩ := this
  by_cases hce : e.conns = []
  · right
    obtain ⟨⟨id, t, h1, h2⟩, d, h3, h4⟩ := hi.idle e he hce (by simp)
    have := hn d h3
    exact ⟨id, t, h1, by simp only [oneMinute]; omega⟩
  · left
    rw [← entry_count h he]
    exact List.length_pos_iff.mpr hce

theorem demoForget_onTime : OnTime { maxConnections := 2 } demoForget := by
  have key : ∀ n ≤ demoForget.length, ∀ d, demoForget[n]? = some (.tick d) →
      ∀ t, (Acct.run { maxConnections := 2 } {} (demoForget.take n)).cleanup = some t →
        (Acct.run { maxConnections := 2 } {} (demoForget.take n)).now + d ≤ t := by
    intro n hn d hd t ht
    have hn : n < 12 := by
      rcases Nat.lt_or_ge n 12 with h | h
      · exact h
      · rw [List.getElem?_eq_none (by have : demoForget.length = 12 := by decide +kernel
                                      omega)] at hd
        simp at hd
    have : ∀ m < 12, ∀ d, demoForget[m]? = some (.tick d) → d = 60000000000 ∧
        (∀ t ∈ (Acct.run { maxConnections := 2 } {} (demoForget.take m)).cleanup,
          (Acct.run { maxConnections := 2 } {} (demoForget.take m)).now + 60000000000 ≤ t) := by
      intro m hm d hd
      have e1 : (demoForget[m]?.all fun | .tick d => d == 60000000000 | _ => true) = true := by
        have : ∀ m < 12, (demoForget[m]?.all fun | .tick d => d == 60000000000 | _ => true) = true := by decide +kernel
        exact this m hm
      rw [hd] at e1
      refine ⟨by simpa using e1, ?_⟩
      have e2 : (demoForget[m]?.any fun | .tick _ => true | _ => false) = true := by rw [hd]; rfl
      have : ∀ m < 12, (demoForget[m]?.any fun | .tick _ => true | _ => false) = true →
          ∀ t ∈ (Acct.run { maxConnections := 2 } {} (demoForget.take m)).cleanup,
            (Acct.run { maxConnections := 2 } {} (demoForget.take m)).now + 60000000000 ≤ t := by decide +kernel
      exact this m hm e2
    obtain ⟨rfl, h2⟩ := this n hn d hd
    exact h2 t ht
  intro a d b e
  have hlen : a.length ≤ demoForget.length := by rw [e]; simp
  have := key a.length hlen d (by rw [e]; simp)
  rw [show demoForget.take a.length = a by rw [e]; simp] at this
  exact this

example : chargesOf (Acct.run { maxConnections := 2 } {} (demoForget.take 11)).log [1] ≠ [] ∧
    chargesOf (Acct.run { maxConnections := 2 } {} demoForget).log [1] = [] := by decide +kernel

/-- **C46 is violated.** If setting up the only connection of a client fails, then this client is
remembered for ever. -/
theorem C46_forgotten_violated (n : Nat) : ∃ evs : List AcctEv,
    chargesOf (Acct.run { maxConnections := 2 } {} evs).log [1] ≠ [] ∧
    liveCount (Acct.run { maxConnections := 2 } {} evs).log [1] = 0 ∧
    (∀ id t, .closed id (some [1]) t ∉ (Acct.run { maxConnections := 2 } {} evs).log) ∧
    OnTime { maxConnections := 2 } evs ∧
    (Acct.run { maxConnections := 2 } {} evs).now = n := by
  have e : Acct.run { maxConnections := 2 } {} [.accept (some [1]) false, .tick n] =
      { Acct.run { maxConnections := 2 } {} [.accept (some [1]) false] with now := 0 + n } := rfl
  have hlog : (Acct.run { maxConnections := 2 } {} [.accept (some [1]) false]).log =
      [.charged [1] 0 1000000000, .failed (some [1])] := by decide +kernel
  refine ⟨[.accept (some [1]) false, .tick n], ?_, ?_, ?_, ?_, ?_⟩
  · rw [e]; simp only [hlog]; decide
  · rw [e]; simp only [hlog]; decide
  · rw [e]; simp only [hlog]; simp
  · intro a d b h t ht
    exfalso
    rcases a with _ | ⟨x, _ | ⟨y, a⟩⟩
    · simp at h
    · simp only [List.cons_append, List.nil_append, List.cons.injEq] at h
      rw [← h.1] at ht
      have : (Acct.run { maxConnections := 2 } {} [.accept (some [1]) false]).cleanup = none := by decide +kernel
      rw [this] at ht
      simp at ht
    · simp at h
  · rw [e]; simp

end Lukko
