import Verif.Proof.Accounting
/-
  Idle clients are forgotten (for C46).
-/
namespace Lukko
open Model Spec

/-- This idle client will be forgotten. -/
def WillForget (s : Acct) (e : PerClient) : Prop :=
  (∃ id t, .closed id (some e.addr) t ∈ s.log ∧ e.expires = t + 300000000000) ∧
  ∃ d, s.cleanup = some d ∧ d ≤ e.expires + 60000000000

structure IdleInv (s : Acct) (skip : Option Bytes) : Prop where
  idle : ∀ e ∈ s.entries, e.conns = [] → skip ≠ some e.addr → WillForget s e
  due : ∀ d, s.cleanup = some d → d ≤ s.now + 60000000000

theorem idle_say {s : Acct} {k} (h : IdleInv s k) (x) : IdleInv (s.say x) k := by
  refine ⟨fun e he hc hk => ?_, h.due⟩
  obtain ⟨⟨id, t, h1, h2⟩, h3⟩ := h.idle e he hc hk
  exact ⟨⟨id, t, List.mem_append_left _ h1, h2⟩, h3⟩

theorem idle_create {s : Acct} {k} (h : IdleInv s k) (client d) (hk : k = none ∨ k = client) : IdleInv (s.create client d) none := by
  rw [create_eq]
  refine ⟨fun e' he' hc _ => ?_, h.due⟩
  obtain ⟨e, he, rfl⟩ := mem_touch he'
  by_cases hcl : client = some e.addr
  · simp [hcl] at hc
  · have : (client == some e.addr) = false := by simpa using hcl
    simp only [this, cond_false] at hc ⊢
    exact h.idle e he hc (by rcases hk with rfl | rfl <;> simp [hcl])

theorem idle_destroy {s : Acct} (hs : AcctShape s) (h : IdleInv s none) {c : AcctConn} (hc : c ∈ s.conns) :
    (∀ e ∈ (s.destroy c).entries, e.conns = [] → c.client ≠ some e.addr → WillForget (s.destroy c) e) ∧
    (∀ d, (s.destroy c).cleanup = some d → d ≤ s.now + 60000000000) ∧
    (∀ e ∈ (s.destroy c).entries, e.conns = [] → c.client = some e.addr →
      e.expires = s.now + 300000000000 ∧ ∃ d, (s.destroy c).cleanup = some d) := by
  obtain ⟨cl, e0, h1, h2⟩ := destroy_eq hs hc
  rw [e0]
  have hdue : ∀ d, cl = some d → d ≤ s.now + 60000000000 := by
    intro d hd
    rcases h1 with h1 | ⟨_, h1⟩
    · exact h.due d (by rw [← h1]; exact hd)
    · rw [h1] at hd
      simp only [Option.some.injEq] at hd
      omega
  refine ⟨?_, hdue, ?_⟩
  · intro e' he' hce hne
    obtain ⟨e, he, rfl⟩ := mem_touch he'
    have hne : c.client ≠ some e.addr := by
      rw [touch_addr (f := fun e => e.remove c.id s.now) (by simp [PerClient.remove])] at hne; exact hne
    have hf : (c.client == some e.addr) = false := by simpa using hne
    simp only [hf, cond_false] at hce ⊢
    obtain ⟨h3, d, h4, h5⟩ := h.idle e he hce (by simp)
    refine ⟨h3, d, ?_, h5⟩
    rcases h1 with h1 | ⟨h1, _⟩
    · rw [h1]; exact h4
    · rw [h1] at h4; simp at h4
  · intro e' he' hce heq
    obtain ⟨e, he, rfl⟩ := mem_touch he'
    have heq : c.client = some e.addr := by
      rw [touch_addr (f := fun e => e.remove c.id s.now) (by simp [PerClient.remove])] at heq; exact heq
    simp only [heq, BEq.rfl, cond_true] at hce ⊢
    have hne := h2 ⟨e, he, heq, hce⟩
    refine ⟨rfl, ?_⟩
    cases cl with
    | none => exact absurd rfl hne
    | some d => exact ⟨d, rfl⟩

theorem destroy_same {s : Acct} (hs : AcctShape s) {c : AcctConn} (hc : c ∈ s.conns) :
    (s.destroy c).now = s.now ∧ (s.destroy c).log = s.log := by
  obtain ⟨cl, e0, _, _⟩ := destroy_eq hs hc
  rw [e0]; exact ⟨rfl, rfl⟩

theorem idle_close {s : Acct} (hs : AcctShape s) (h : IdleInv s none) {c : AcctConn} (hc : c ∈ s.conns) :
    IdleInv ((s.destroy c).say (.closed c.id c.client s.now)) none := by
  obtain ⟨h1, h2, h3⟩ := idle_destroy hs h hc
  have hsame := destroy_same hs hc
  refine ⟨fun e he hce _ => ?_, fun d hd => ?_⟩
  · by_cases hcl : c.client = some e.addr
    · obtain ⟨h4, d, h5⟩ := h3 e he hce hcl
      have h6 := h2 d h5
      refine ⟨⟨c.id, s.now, ?_, h4⟩, d, h5, by omega⟩
      simp [Acct.say, hcl]
    · obtain ⟨⟨id, t, h4, h5⟩, h6⟩ := h1 e he hce hcl
      exact ⟨⟨id, t, List.mem_append_left _ h4, h5⟩, h6⟩
  · rw [show ((s.destroy c).say (.closed c.id c.client s.now)).now = s.now from hsame.1]
    exact h2 d hd

theorem idle_promote {s : Acct} (hs : AcctShape s) (h : IdleInv s none) {c : AcctConn} (hc : c ∈ s.conns) :
    IdleInv (((s.create c.client false).destroy c).say (.promoted c.id s.nextId)) none := by
  have hs1 := shape_create hs c.client false (hs.have_ c hc)
  have hc1 : c ∈ (s.create c.client false).conns := by rw [create_eq]; simp [hc]
  have hi1 := idle_create h c.client false (.inl rfl)
  have hs2 := shape_destroy hs1 hc1
  obtain ⟨h1, h2, h3⟩ := idle_destroy hs1 hi1 hc1
  have hsame := destroy_same hs1 hc1
  refine idle_say ⟨fun e he hce _ => ?_, fun d hd => ?_⟩ _
  · by_cases hcl : c.client = some e.addr
    · exfalso
      have := hs2.entry e he
      rw [hce] at this
      obtain ⟨cl, e0, _, _⟩ := destroy_eq hs1 hc1
      rw [e0, create_eq] at this
      have hne : s.nextId ≠ c.id := Nat.ne_of_gt (hs.lt c hc)
      simp [hcl, hne] at this
    · exact h1 e he hce hcl
  · rw [hsame.1]
    exact h2 d hd

theorem idle_get {s : Acct} (h : IdleInv s none) (a : Bytes) : IdleInv (s.get a) (some a) := by
  unfold Acct.get
  cases s.entries.any (·.addr == a)
  · refine ⟨fun e he hc hk => ?_, h.due⟩
    simp only [cond_false, List.mem_append, List.mem_singleton] at he
    rcases he with he | rfl
    · exact h.idle e he hc (by simp)
    · exact absurd rfl hk
  · exact ⟨fun e he hc _ => h.idle e he hc (by simp), h.due⟩

theorem idle_charge {cfg} {s : Acct} {k} (h : IdleInv s k) (a : Bytes) (cost : Nat) : IdleInv (s.charge cfg a cost) k := by
  have hsay : IdleInv (s.say (.charged a s.now cost)) k := idle_say h _
  unfold Acct.charge
  cases cfg.tarpit
  · exact hsay
  · simp only [cond_true, modify_touch]
    refine ⟨fun e' he' hc hk => ?_, h.due⟩
    obtain ⟨e, he, rfl⟩ := mem_touch he'
    have := hsay.idle e he
    cases hb : (some a : Option Bytes) == some e.addr
    · rw [hb] at hc hk; exact this hc hk
    · rw [hb] at hc hk; exact this hc hk

/-- Setting up a connection has failed. -/
def isFailed : AcctEntry → Bool
  | .failed _ => true
  | _ => false

theorem idle_admit {cfg} {s : Acct} {e : PerClient} (h : AcctInv cfg s) (hi : IdleInv s (some e.addr)) (hm : e ∈ s.entries) (ok : Bool)
    (hf : ∀ x ∈ (s.admit cfg e.addr e ok).log, isFailed x = false) : IdleInv (s.admit cfg e.addr e ok) none := by
  unfold Acct.admit at hf ⊢
  cases hck : e.check cfg
  · refine idle_say ⟨fun e' he' hc' _ => ?_, hi.due⟩ _
    by_cases ha : e.addr = e'.addr
    · have := entry_unique h.shape.uniq hm he' ha
      subst this
      simp only [PerClient.check, Bool.or_eq_false_iff, beq_eq_false_iff_ne, decide_eq_false_iff_not] at hck
      rw [hc'] at hck
      simp only [List.length_nil] at hck
      omega
    · exact hi.idle e' he' hc' (by simpa using ha)
  · rw [hck] at hf
    simp only [Bool.not_true, cond_false] at hf ⊢
    simp only [Bool.cond_eq_ite] at hf ⊢
    split
    · exact idle_say (idle_create hi _ _ (.inr rfl)) _
    · rename_i hd
      rw [if_neg hd] at hf
      cases ok
      · have := hf (.failed (some e.addr)) (by simp [Acct.construct, Acct.say])
        simp [isFailed] at this
      · exact idle_say (idle_create hi _ _ (.inr rfl)) _

theorem idle_step {cfg s} (h : AcctInv cfg s) (hi : IdleInv s none) (ev : AcctEv) (hf : ∀ x ∈ (s.step cfg ev).log, isFailed x = false) :
    IdleInv (s.step cfg ev) none := by
  cases ev with
  | accept address ok =>
    simp only [Acct.step, Acct.accept] at hf ⊢
    generalize (bif decide (0 < cfg.maxConnections) || cfg.tarpit then address else none) = ad at hf ⊢
    cases ad with
    | none =>
      cases ok
      · exact idle_say hi _
      · exact idle_say (idle_create hi _ _ (.inl rfl)) _
    | some a =>
      simp only at hf ⊢
      obtain ⟨h1, ha1⟩ := inv_get h a
      obtain ⟨h2, ha2⟩ := inv_charge h1 ha1 1000000000
      obtain ⟨e, he⟩ := find_exists ha2
      rw [he] at hf ⊢
      obtain ⟨hm, rfl⟩ := find_mem he
      exact idle_admit h2 (idle_charge (idle_get hi _) _ _) hm ok hf
  | expire id ok =>
    simp only [Acct.step]
    split
    · exact hi
    · rename_i c hc
      cases c.delayed
      · exact hi
      · cases ok
        · exact idle_close h.shape hi (find_id hc).1
        · exact idle_promote h.shape hi (find_id hc).1
  | close id =>
    simp only [Acct.step]
    split
    · exact hi
    · rename_i c hc
      exact idle_close h.shape hi (find_id hc).1
  | charge id cost =>
    simp only [Acct.step]
    split
    · exact hi
    · rename_i c hc
      split
      · exact hi
      · rename_i a ha
        simp only [Bool.cond_eq_ite]
        split
        · exact idle_charge hi _ _
        · exact ⟨hi.idle, hi.due⟩
  | cleanup =>
    simp only [Acct.step]
    split
    · exact hi
    · simp only [Bool.cond_eq_ite]
      split
      · unfold Acct.onCleanup
        simp only [Bool.cond_eq_ite]
        split
        · refine ⟨fun e he hc _ => ?_, fun d hd => ?_⟩
          · have hme := List.mem_filter.mp he
            obtain ⟨⟨id, t, h1, h2⟩, _⟩ := hi.idle e hme.1 hc (by simp)
            refine ⟨⟨id, t, ?_, h2⟩, s.now + 60000000000, rfl, ?_⟩
            · simp only [Acct.scheduleCleanup]
              exact List.mem_append_left _ h1
            · have := hme.2
              simp only [PerClient.stale, hc, List.isEmpty_nil, Bool.true_and, Bool.not_eq_eq_eq_not, Bool.not_true,
                decide_eq_false_iff_not, Nat.not_le] at this
              omega
          · simp only [Acct.scheduleCleanup, Option.some.injEq] at hd ⊢
            omega
        · rename_i hany
          refine ⟨fun e he hc _ => ?_, fun d hd => by simp at hd⟩
          exfalso
          apply hany
          exact List.any_eq_true.mpr ⟨e, he, by simp [hc]⟩
      · exact hi
  | tick d =>
    refine ⟨fun e he hc hk => ?_, fun d' hd => Nat.le_trans (hi.due d' hd) (by show _ ≤ s.now + d + _; omega)⟩
    exact hi.idle e he hc hk

theorem log_step {cfg s} (h : AcctInv cfg s) (ev : AcctEv) : ∃ d, (s.step cfg ev).log = s.log ++ d := by
  have hcreate : ∀ (s : Acct) (c d), (s.create c d).log = s.log := by intro s c d; rw [create_eq]
  cases ev with
  | accept address ok =>
    simp only [Acct.step, Acct.accept]
    generalize (bif decide (0 < cfg.maxConnections) || cfg.tarpit then address else none) = ad
    have hcon : ∀ (s : Acct) c ok, ∃ d, (s.construct c ok).log = s.log ++ d := by
      intro s c ok
      cases ok
      · exact ⟨_, rfl⟩
      · exact ⟨[.opened s.nextId c 0], by simp only [Acct.construct, cond_true, Acct.say, hcreate]⟩
    cases ad with
    | none => exact hcon s none ok
    | some a =>
      simp only
      have hl : ∃ d, ((s.get a).charge cfg a 1000000000).log = s.log ++ d := by
        have hg : (s.get a).log = s.log := by unfold Acct.get; cases s.entries.any (·.addr == a) <;> rfl
        have hn : ((s.get a).charge cfg a 1000000000).log = (s.get a).log ++ [.charged a (s.get a).now 1000000000] := by
          unfold Acct.charge; cases cfg.tarpit <;> rfl
        exact ⟨_, by rw [hn, hg]⟩
      obtain ⟨d, hd⟩ := hl
      revert hd
      generalize (s.get a).charge cfg a 1000000000 = s2
      intro hd
      split
      · exact ⟨d, hd⟩
      · rename_i e _
        have : ∃ d, (s2.admit cfg a e ok).log = s2.log ++ d := by
          unfold Acct.admit
          simp only [Bool.cond_eq_ite]
          split
          · exact ⟨_, rfl⟩
          · split
            · exact ⟨_, by simp only [Acct.say, hcreate]; rfl⟩
            · exact hcon s2 _ ok
        obtain ⟨d', hd'⟩ := this
        exact ⟨d ++ d', by rw [hd', hd, List.append_assoc]⟩
  | expire id ok =>
    simp only [Acct.step]
    split
    · exact ⟨[], by simp⟩
    · rename_i c hc
      cases c.delayed
      · exact ⟨[], by simp⟩
      · cases ok
        · exact ⟨_, by simp only [Acct.expire, cond_true, cond_false, Acct.say, (destroy_same h.shape (find_id hc).1).2]; rfl⟩
        · have hs1 := shape_create h.shape c.client false (h.shape.have_ c (find_id hc).1)
          have hc1 : c ∈ (s.create c.client false).conns := by rw [create_eq]; simp [(find_id hc).1]
          exact ⟨_, by simp only [Acct.expire, cond_true, Acct.say, (destroy_same hs1 hc1).2, hcreate]; rfl⟩
  | close id =>
    simp only [Acct.step]
    split
    · exact ⟨[], by simp⟩
    · rename_i c hc
      exact ⟨_, by simp only [Acct.say, (destroy_same h.shape (find_id hc).1).2]; rfl⟩
  | charge id cost =>
    simp only [Acct.step]
    split
    · exact ⟨[], by simp⟩
    · split
      · exact ⟨[], by simp⟩
      · simp only [Bool.cond_eq_ite]
        split
        · rename_i a _ _
          exact ⟨[.charged a s.now cost], by unfold Acct.charge; cases cfg.tarpit <;> rfl⟩
        · exact ⟨[], by simp⟩
  | cleanup =>
    simp only [Acct.step]
    split
    · exact ⟨[], by simp⟩
    · simp only [Bool.cond_eq_ite]
      split
      · refine ⟨(s.entries.filter (·.stale s.now)).map fun e => .discarded e.addr s.now, ?_⟩
        unfold Acct.onCleanup
        simp only [Bool.cond_eq_ite]
        split <;> rfl
      · exact ⟨[], by simp⟩
  | tick d => exact ⟨[], by simp [Acct.step]⟩

theorem idle_acct (cfg : AcctCfg) (evs : List AcctEv) (hf : ∀ x ∈ (Acct.run cfg {} evs).log, isFailed x = false) :
    IdleInv (Acct.run cfg {} evs) none := by
  induction evs using Aux.snoc_ind with
  | h0 => exact ⟨by simp [Acct.run], by simp [Acct.run]⟩
  | h1 evs ev ih =>
    rw [acct_run_snoc] at hf ⊢
    have h := inv_acct cfg evs
    obtain ⟨d, hd⟩ := log_step h ev
    exact idle_step h (ih fun x hx => hf x (by rw [hd]; exact List.mem_append_left _ hx)) ev hf

/-- The cleanup timer fires in time. -/
def OnTime (cfg : AcctCfg) (evs : List AcctEv) : Prop :=
  ∀ a d b, evs = a ++ .tick d :: b → ∀ t, (Acct.run cfg {} a).cleanup = some t → (Acct.run cfg {} a).now + d ≤ t

theorem now_cleanup {cfg} {s : Acct} (h : AcctInv cfg s) (hd : ∀ t, s.cleanup = some t → s.now ≤ t) {ev : AcctEv}
    (ht : ∀ d, ev = .tick d → ∀ t, s.cleanup = some t → s.now + d ≤ t) :
    ∀ t, (s.step cfg ev).cleanup = some t → (s.step cfg ev).now ≤ t := by
  have hcreate : ∀ (s : Acct) (c d), (s.create c d).cleanup = s.cleanup ∧ (s.create c d).now = s.now := by
    intro s c d; rw [create_eq]; exact ⟨rfl, rfl⟩
  have hcon : ∀ (s : Acct) c ok, (s.construct c ok).cleanup = s.cleanup ∧ (s.construct c ok).now = s.now := by
    intro s c ok
    cases ok
    · exact ⟨rfl, rfl⟩
    · exact hcreate s c false
  have hdest : ∀ (s : Acct), AcctShape s → (∀ t, s.cleanup = some t → s.now ≤ t) → ∀ c ∈ s.conns, ∀ t, (s.destroy c).cleanup = some t →
      (s.destroy c).now ≤ t := by
    intro s hs hd c hc t ht
    obtain ⟨cl, e0, h1, _⟩ := destroy_eq hs hc
    rw [e0] at ht ⊢
    simp only at ht ⊢
    rcases h1 with h1 | ⟨_, h1⟩
    · exact hd t (by rw [← h1]; exact ht)
    · rw [h1] at ht; simp only [Option.some.injEq] at ht; omega
  cases ev with
  | accept address ok =>
    suffices (s.step cfg (.accept address ok)).cleanup = s.cleanup ∧ (s.step cfg (.accept address ok)).now = s.now by
      intro t ht; rw [this.2]; exact hd t (by rw [← this.1]; exact ht)
    simp only [Acct.step, Acct.accept]
    generalize (bif decide (0 < cfg.maxConnections) || cfg.tarpit then address else none) = ad
    cases ad with
    | none => exact hcon s none ok
    | some a =>
      simp only
      have hg : (s.get a).cleanup = s.cleanup ∧ (s.get a).now = s.now := by
        unfold Acct.get; cases s.entries.any (·.addr == a) <;> exact ⟨rfl, rfl⟩
      have hn : ((s.get a).charge cfg a 1000000000).cleanup = (s.get a).cleanup ∧ ((s.get a).charge cfg a 1000000000).now = (s.get a).now := by
        unfold Acct.charge; cases cfg.tarpit <;> exact ⟨rfl, rfl⟩
      rw [← hg.1, ← hg.2, ← hn.1, ← hn.2]
      generalize (s.get a).charge cfg a 1000000000 = s2
      split
      · exact ⟨rfl, rfl⟩
      · unfold Acct.admit
        simp only [Bool.cond_eq_ite]
        split
        · exact ⟨rfl, rfl⟩
        · split
          · exact hcreate s2 _ _
          · exact hcon s2 _ ok
  | expire id ok =>
    simp only [Acct.step]
    split
    · exact hd
    · rename_i c hc
      cases c.delayed
      · exact hd
      · cases ok
        · exact hdest s h.shape hd c (find_id hc).1
        · have hs1 := shape_create h.shape c.client false (h.shape.have_ c (find_id hc).1)
          have hc1 : c ∈ (s.create c.client false).conns := by rw [create_eq]; simp [(find_id hc).1]
          exact hdest _ hs1 (by rw [(hcreate s c.client false).1, (hcreate s c.client false).2]; exact hd) c hc1
  | close id =>
    simp only [Acct.step]
    split
    · exact hd
    · rename_i c hc
      exact hdest s h.shape hd c (find_id hc).1
  | charge id cost =>
    simp only [Acct.step]
    split
    · exact hd
    · split
      · exact hd
      · simp only [Bool.cond_eq_ite]
        split
        · unfold Acct.charge; cases cfg.tarpit <;> exact hd
        · exact hd
  | cleanup =>
    simp only [Acct.step]
    split
    · exact hd
    · simp only [Bool.cond_eq_ite]
      split
      · unfold Acct.onCleanup
        simp only [Bool.cond_eq_ite]
        split
        · intro t ht
          simp only [Acct.scheduleCleanup, Option.some.injEq] at ht ⊢
          omega
        · intro t ht; simp at ht
      · exact hd
  | tick d => exact fun t h1 => ht d rfl t h1

theorem onTime_now {cfg evs} (h : OnTime cfg evs) : ∀ t, (Acct.run cfg {} evs).cleanup = some t → (Acct.run cfg {} evs).now ≤ t := by
  induction evs using Aux.snoc_ind with
  | h0 => simp [Acct.run]
  | h1 evs ev ih =>
    rw [acct_run_snoc]
    refine now_cleanup (inv_acct cfg evs) (ih fun a d b e => h a d (b ++ [ev]) (by rw [e]; simp)) ?_
    rintro d rfl t ht
    exact h evs d [] rfl t ht

end Lukko
