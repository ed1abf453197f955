import Verif.Proof.AccountingIdle
import Verif.Proof.Tally
import Verif.Model.Guard
/-
  What one event does to the accounting, as far as it matters for guessing passwords.
-/
namespace Lukko
open Spec Model

theorem spent_append (a b : List GuardEntry) (c : Bytes) : spent (a ++ b) c = spent a c + spent b c := by simp [spent]
theorem attempted_append (a b : List GuardEntry) (c : Bytes) : attempted (a ++ b) c = attempted a c + attempted b c :=
  List.countP_append ..

/-- The effect of an event which is not a charge by a connection. -/
structure AcctStep (s s' : Acct) (d : List AcctEntry) : Prop where
  log : s'.log = s.log ++ d
  next : s.nextId ≤ s'.nextId
  now : s.now ≤ s'.now
  conns : ∀ c ∈ s'.conns, c ∈ s.conns ∨ s.nextId ≤ c.id
  pay : ∀ client, oneToken * attempted (d.map .acct) client ≤ spent (d.map .acct) client

theorem acctStep_refl (s : Acct) : AcctStep s s [] :=
  ⟨by simp, Nat.le_refl _, Nat.le_refl _, fun _ h => .inl h, fun _ => Nat.le_refl _⟩

/-- A connection is made (or not), and is paid for. -/
theorem acctStep_create {cfg : AcctCfg} {s : Acct} {a : Bytes} {s' : Acct} {x : AcctEntry}
    (h1 : s'.log = ((s.get a).charge cfg a 1000000000).log ++ [x]) (h2 : s.nextId ≤ s'.nextId) (h3 : s'.now = s.now)
    (h4 : ∀ c ∈ s'.conns, c ∈ s.conns ∨ s.nextId ≤ c.id)
    (hx : ∀ c, attempted [.acct x] c ≤ if a = c then 1 else 0) : AcctStep s s' [.charged a s.now 1000000000, x] := by
  have hg : (s.get a).log = s.log ∧ (s.get a).now = s.now := by
    unfold Acct.get; cases s.entries.any (·.addr == a) <;> exact ⟨rfl, rfl⟩
  have hl : ((s.get a).charge cfg a 1000000000).log = s.log ++ [.charged a s.now 1000000000] := by
    unfold Acct.charge; cases cfg.tarpit <;> simp [Acct.say, Acct.modify, hg.1, hg.2]
  refine ⟨by rw [h1, hl]; simp, h2, by omega, h4, ?_⟩
  intro c
  have e1 : attempted ([AcctEntry.charged a s.now 1000000000, x].map GuardEntry.acct) c = attempted [.acct x] c := by
    show attempted ([GuardEntry.acct (.charged a s.now 1000000000)] ++ [.acct x]) c = _
    rw [attempted_append]
    exact Nat.zero_add _
  have e2 : (if a = c then 1000000000 else 0) ≤ spent ([AcctEntry.charged a s.now 1000000000, x].map GuardEntry.acct) c := by
    show _ ≤ spent ([GuardEntry.acct (.charged a s.now 1000000000)] ++ [.acct x]) c
    rw [spent_append]
    have : spent [GuardEntry.acct (.charged a s.now 1000000000)] c = if a = c then 1000000000 else 0 := by
      simp [spent]
    omega
  rw [e1]
  have := hx c
  simp only [oneToken]
  by_cases h : a = c
  · rw [if_pos h] at this e2; omega
  · rw [if_neg h] at this; omega

theorem attempted_free {x : AcctEntry} (h : match x with | .opened _ (some _) _ | .failed (some _) | .rejected _ => False | _ => True)
    (c : Bytes) : attempted [.acct x] c = 0 := by
  cases x with
  | opened i o n => cases o with
    | none => rfl
    | some a => exact h.elim
  | failed o => cases o with
    | none => rfl
    | some a => exact h.elim
  | rejected a => exact h.elim
  | _ => rfl

theorem acctStep_one {s s' : Acct} {x : AcctEntry} (h1 : s'.log = s.log ++ [x]) (h2 : s.nextId ≤ s'.nextId) (h3 : s'.now = s.now)
    (h4 : ∀ c ∈ s'.conns, c ∈ s.conns ∨ s.nextId ≤ c.id) (hx : ∀ c, attempted [.acct x] c = 0) : AcctStep s s' [x] := by
  refine ⟨h1, h2, by omega, h4, ?_⟩
  intro c
  rw [show [x].map GuardEntry.acct = [.acct x] from rfl, hx]
  exact Nat.zero_le _

theorem create_conns (s : Acct) (client : Option Bytes) (d : Bool) (c : AcctConn) (h : c ∈ (s.create client d).conns) :
    c ∈ s.conns ∨ s.nextId ≤ c.id := by
  rw [create_eq] at h
  simp only [List.mem_append, List.mem_singleton] at h
  rcases h with h | h
  · exact .inl h
  · rw [h]; exact .inr (Nat.le_refl _)

theorem create_next (s : Acct) (client : Option Bytes) (d : Bool) : (s.create client d).nextId = s.nextId + 1 ∧
    (s.create client d).now = s.now ∧ (s.create client d).log = s.log := by rw [create_eq]; exact ⟨rfl, rfl, rfl⟩

theorem destroy_facts {s : Acct} (h : AcctShape s) {c : AcctConn} (hc : c ∈ s.conns) : (s.destroy c).nextId = s.nextId ∧
    (s.destroy c).now = s.now ∧ (s.destroy c).log = s.log ∧ ∀ x ∈ (s.destroy c).conns, x ∈ s.conns := by
  obtain ⟨cl, e, _, _⟩ := destroy_eq h hc
  rw [e]
  exact ⟨rfl, rfl, rfl, fun x hx => (List.mem_filter.mp hx).1⟩

theorem acctStep_accept {cfg : AcctCfg} {s : Acct} (h : AcctInv cfg s) (address : Option Bytes) (ok : Bool) :
    ∃ d, AcctStep s (s.accept cfg address ok) d := by
  unfold Acct.accept
  generalize (bif decide (0 < cfg.maxConnections) || cfg.tarpit then address else none) = ad
  cases ad with
  | none =>
    cases ok
    · exact ⟨_, acctStep_one (x := .failed none) rfl (Nat.le_refl _) rfl (fun _ h => .inl h) (attempted_free trivial)⟩
    · refine ⟨_, acctStep_one (x := .opened s.nextId none 0) ?_ ?_ ?_ ?_ (attempted_free trivial)⟩
      · show (s.create none false).log ++ _ = _; rw [(create_next s none false).2.2]
      · show _ ≤ (s.create none false).nextId; rw [(create_next s none false).1]; omega
      · exact (create_next s none false).2.1
      · exact create_conns s none false
  | some a =>
    simp only
    obtain ⟨hg, he⟩ := inv_get h a
    obtain ⟨e, hfe⟩ := find_exists (s := (s.get a).charge cfg a 1000000000) (a := a) (by
      unfold Acct.charge
      obtain ⟨e, he, ha⟩ := he
      cases cfg.tarpit
      · exact ⟨e, he, ha⟩
      · simp only [cond_true, modify_touch]
        exact (exists_touch (by intro e; rfl)).mpr ⟨e, he, ha⟩)
    rw [hfe]
    simp only
    have hb : ((s.get a).charge cfg a 1000000000).nextId = s.nextId ∧ ((s.get a).charge cfg a 1000000000).now = s.now ∧
        ((s.get a).charge cfg a 1000000000).conns = s.conns := by
      have : (s.get a).nextId = s.nextId ∧ (s.get a).now = s.now ∧ (s.get a).conns = s.conns := by
        unfold Acct.get; cases s.entries.any (·.addr == a) <;> exact ⟨rfl, rfl, rfl⟩
      unfold Acct.charge
      cases cfg.tarpit <;> exact this
    have hone : ∀ (id n : Nat) c, attempted [.acct (.opened id (some a) n)] c ≤ if a = c then 1 else 0 := by
      intro id n c
      by_cases hac : a = c
      · rw [if_pos hac]; exact List.countP_le_length
      · rw [if_neg hac]; simp [attempted, hac]
    have hcr : ∀ d c, c ∈ (((s.get a).charge cfg a 1000000000).create (some a) d).conns → c ∈ s.conns ∨ s.nextId ≤ c.id := by
      intro d c hc
      have := create_conns _ _ _ c hc
      rw [hb.1, hb.2.2] at this
      exact this
    unfold Acct.admit
    cases e.check cfg
    · refine ⟨_, acctStep_create (cfg := cfg) (x := .rejected a) rfl (Nat.le_of_eq hb.1.symm) hb.2.1 ?_ ?_⟩
      · intro c hc; exact .inl (by rw [← hb.2.2]; exact hc)
      · intro c
        by_cases hac : a = c
        · rw [if_pos hac]; exact List.countP_le_length
        · rw [if_neg hac]; simp [attempted, hac]
    · cases decide (0 < e.throttle.delay)
      · cases ok
        · refine ⟨_, acctStep_create (cfg := cfg) (x := .failed (some a)) rfl (Nat.le_of_eq hb.1.symm) hb.2.1 ?_ ?_⟩
          · intro c hc; exact .inl (by rw [← hb.2.2]; exact hc)
          · intro c
            by_cases hac : a = c
            · rw [if_pos hac]; exact List.countP_le_length
            · rw [if_neg hac]; simp [attempted, hac]
        · refine ⟨_, acctStep_create (cfg := cfg) (x := .opened ((s.get a).charge cfg a 1000000000).nextId (some a) 0) ?_ ?_ ?_
            (hcr false) (hone _ _)⟩
          · show (Acct.create _ _ _).log ++ _ = _; rw [(create_next _ _ _).2.2]
          · show _ ≤ (Acct.create _ _ _).nextId; rw [(create_next _ _ _).1, hb.1]; omega
          · exact (create_next _ _ _).2.1.trans hb.2.1
      · refine ⟨_, acctStep_create (cfg := cfg)
          (x := .opened ((s.get a).charge cfg a 1000000000).nextId (some a) e.throttle.delay) ?_ ?_ ?_ (hcr true) (hone _ _)⟩
        · show (Acct.create _ _ _).log ++ _ = _; rw [(create_next _ _ _).2.2]
        · show _ ≤ (Acct.create _ _ _).nextId; rw [(create_next _ _ _).1, hb.1]; omega
        · exact (create_next _ _ _).2.1.trans hb.2.1

theorem acctStep_step {cfg : AcctCfg} {s : Acct} (h : AcctInv cfg s) (ev : AcctEv) (hev : ∀ i n, ev ≠ .charge i n) :
    ∃ d, AcctStep s (s.step cfg ev) d := by
  cases ev with
  | accept address ok => exact acctStep_accept h address ok
  | expire id ok =>
    simp only [Acct.step]
    split
    · exact ⟨_, acctStep_refl s⟩
    · rename_i c hc
      have hm := (find_id hc).1
      cases c.delayed
      · exact ⟨_, acctStep_refl s⟩
      · cases ok
        · obtain ⟨h1, h2, h3, h4⟩ := destroy_facts h.shape hm
          refine ⟨_, acctStep_one (x := .closed c.id c.client s.now) ?_ (Nat.le_of_eq h1.symm) h2 (fun x hx => .inl (h4 x hx))
            (attempted_free trivial)⟩
          show (s.destroy c).log ++ _ = _
          rw [h3]
        · have hs1 := shape_create h.shape c.client false (h.shape.have_ c hm)
          have hc1 : c ∈ (s.create c.client false).conns := by rw [create_eq]; simp [hm]
          obtain ⟨h1, h2, h3, h4⟩ := destroy_facts hs1 hc1
          obtain ⟨g1, g2, g3⟩ := create_next s c.client false
          refine ⟨_, acctStep_one (x := .promoted c.id s.nextId) ?_ ?_ ?_ ?_ (attempted_free trivial)⟩
          · show (Acct.destroy _ c).log ++ _ = _
            rw [h3, g3]
          · show _ ≤ (Acct.destroy _ c).nextId
            rw [h1, g1]; omega
          · exact h2.trans g2
          · intro x hx; exact create_conns _ _ _ x (h4 x hx)
  | close id =>
    simp only [Acct.step]
    split
    · exact ⟨_, acctStep_refl s⟩
    · rename_i c hc
      obtain ⟨h1, h2, h3, h4⟩ := destroy_facts h.shape (find_id hc).1
      refine ⟨_, acctStep_one (x := .closed c.id c.client s.now) ?_ (Nat.le_of_eq h1.symm) h2 (fun x hx => .inl (h4 x hx))
        (attempted_free trivial)⟩
      show (s.destroy c).log ++ _ = _
      rw [h3]
  | charge id cost => exact absurd rfl (hev id cost)
  | cleanup =>
    simp only [Acct.step]
    split
    · exact ⟨_, acctStep_refl s⟩
    · simp only [Bool.cond_eq_ite]
      split
      · refine ⟨(s.entries.filter (·.stale s.now)).map fun e => .discarded e.addr s.now, ?_⟩
        have hp : ∀ client, attempted (((s.entries.filter (·.stale s.now)).map fun e =>
            AcctEntry.discarded e.addr s.now).map GuardEntry.acct) client = 0 := by
          intro client
          unfold attempted
          rw [List.countP_eq_zero]
          intro x hx
          simp only [List.map_map, List.mem_map] at hx
          obtain ⟨e, _, rfl⟩ := hx
          exact Bool.false_ne_true
        have key : ∀ s' : Acct, s'.log = s.log ++ (s.entries.filter (·.stale s.now)).map (fun e =>
            AcctEntry.discarded e.addr s.now) → s'.nextId = s.nextId → s'.now = s.now → s'.conns = s.conns →
            AcctStep s s' ((s.entries.filter (·.stale s.now)).map fun e => .discarded e.addr s.now) := by
          intro s' h1 h2 h3 h4
          exact ⟨h1, Nat.le_of_eq h2.symm, Nat.le_of_eq h3.symm, fun c hc => .inl (by rw [← h4]; exact hc),
            fun client => by rw [hp]; exact Nat.zero_le _⟩
        unfold Acct.onCleanup
        simp only [Bool.cond_eq_ite]
        split
        · exact key _ rfl rfl rfl rfl
        · exact key _ rfl rfl rfl rfl
      · exact ⟨_, acctStep_refl s⟩
  | tick d => exact ⟨[], by simp [Acct.step], Nat.le_refl _, Nat.le_add_right _ _, fun _ h => .inl h, fun _ => Nat.le_refl _⟩

/-- The charges of a connection. -/
theorem charge_all {cfg : AcctCfg} (ts : List Tally) : ∀ {s : Acct}, AcctInv cfg s → ∀ {c : AcctConn}, c ∈ s.conns →
    AcctInv cfg (s.chargeAll cfg c.id ts) ∧ (s.chargeAll cfg c.id ts).conns = s.conns ∧
    (s.chargeAll cfg c.id ts).nextId = s.nextId ∧ (s.chargeAll cfg c.id ts).now = s.now ∧
    ∃ d, (s.chargeAll cfg c.id ts).log = s.log ++ d ∧ ∀ client, attempted (d.map .acct) client = 0 ∧
      spent (d.map .acct) client = if c.client = some client then paid ts else 0 := by
  induction ts with
  | nil =>
    intro s h c hc
    refine ⟨h, rfl, rfl, rfl, [], by simp [Acct.chargeAll], fun client => ⟨rfl, ?_⟩⟩
    split <;> rfl
  | cons t ts ih =>
    intro s h c hc
    cases t with
    | count k =>
      obtain ⟨h1, h2, h3, h4, d, h5, h6⟩ := ih h hc
      refine ⟨h1, h2, h3, h4, d, h5, fun client => ⟨(h6 client).1, ?_⟩⟩
      rw [paid_count]; exact (h6 client).2
    | tokens n =>
      have hi := inv_acct_step h (.charge c.id n)
      have hcn : s.conn c.id = some c := by
        cases hx : s.conn c.id with
        | none =>
          unfold Acct.conn at hx
          rw [List.find?_eq_none] at hx
          exact absurd (beq_self_eq_true c.id) (hx c hc)
        | some x =>
          have := find_id hx
          rw [conn_unique h.shape this.1 hc this.2]
      have hstep : ∃ d1, (s.step cfg (.charge c.id n)).log = s.log ++ d1 ∧ (s.step cfg (.charge c.id n)).conns = s.conns ∧
          (s.step cfg (.charge c.id n)).nextId = s.nextId ∧ (s.step cfg (.charge c.id n)).now = s.now ∧
          ∀ client, attempted (d1.map .acct) client = 0 ∧
            spent (d1.map .acct) client = if c.client = some client then n else 0 := by
        simp only [Acct.step, hcn]
        cases ha : c.client with
        | none => exact ⟨[], by simp, rfl, rfl, rfl, fun client => ⟨rfl, by simp [spent]⟩⟩
        | some a =>
          have hex : s.entries.any (·.addr == a) = true := by
            obtain ⟨e, he, hae⟩ := h.shape.have_ c hc a ha
            rw [List.any_eq_true]
            exact ⟨e, he, by rw [hae]; exact beq_self_eq_true a⟩
          simp only [hex, cond_true]
          refine ⟨[.charged a s.now n], ?_, ?_, ?_, ?_, ?_⟩
          · unfold Acct.charge; cases cfg.tarpit <;> rfl
          · unfold Acct.charge; cases cfg.tarpit <;> rfl
          · unfold Acct.charge; cases cfg.tarpit <;> rfl
          · unfold Acct.charge; cases cfg.tarpit <;> rfl
          · intro client
            refine ⟨rfl, ?_⟩
            simp [spent]
      obtain ⟨d1, e1, e2, e3, e4, e5⟩ := hstep
      obtain ⟨h1, h2, h3, h4, d, h5, h6⟩ := ih hi (c := c) (by rw [e2]; exact hc)
      have hca : s.chargeAll cfg c.id (.tokens n :: ts) = (s.step cfg (.charge c.id n)).chargeAll cfg c.id ts := rfl
      rw [hca]
      refine ⟨h1, h2.trans e2, h3.trans e3, h4.trans e4, d1 ++ d, by rw [h5, e1, List.append_assoc], fun client => ?_⟩
      rw [List.map_append, attempted_append, spent_append, (e5 client).1, (e5 client).2, (h6 client).1, (h6 client).2, paid_tokens]
      refine ⟨rfl, ?_⟩
      split <;> omega

end Lukko
