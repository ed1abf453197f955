import Verif.Proof.TallyStep
/-
  The books, over whole runs.
-/
namespace Lukko
open Spec Model

theorem answered_append (a b) : answered (a ++ b) = answered a + answered b := List.countP_append ..

theorem StepBook.append {w w' : Nat} {t t' t'' : Option AuthTask} {d d' : List AuthEntry} {ts ts' : List Tally}
    (h : StepBook w t d t' ts) (h' : StepBook w' t' d' t'' ts') : StepBook (w + w') t (d ++ d') t'' (ts ++ ts') := by
  obtain ⟨a1, a2, a3, a4, a5, a6, a7⟩ := h
  obtain ⟨b1, b2, b3, b4, b5, b6, b7⟩ := h'
  refine ⟨?_, ?_, ?_, ?_, ?_, ?_, ?_⟩
  · rw [counted_append, loginsBy_append, a1, b1]
  · rw [counted_append, loginsBy_append, a2, b2]
  · simp only [countedAccepted, loginCount_append, counted_append] at *
    omega
  · simp only [countedFailed, failures_append, counted_append] at *
    omega
  · simp only [countedFailed, failures_append, counted_append, uncountedRequests_append] at *
    omega
  · simp only [answered_append, counted_append] at *
    omega
  · simp only [verdicts_append, wrongPasswords_append, paid_append, oneToken] at *
    omega

theorem lastAccount_mem {log : List AuthEntry} {x : Bytes × Bytes × Account} (h : lastAccount log = some x) :
    .account x.1 x.2.1 x.2.2 ∈ log := by
  induction log using Aux.snoc_ind generalizing x with
  | h0 => cases h
  | h1 l e ih =>
    rw [lastAccount_snoc] at h
    cases e <;> first
      | (cases h; simp; done)
      | exact List.mem_append_left _ (ih h)

theorem passwordAccepted_nil {a : Account} (h : a.noPassword = none) : passwordAccepted a [] = false := by
  unfold passwordAccepted
  rw [h]; rfl

theorem wastedAfter_zero {cfg : AuthCfg} {y : Auth} (hy : ∀ t, y.translation = some t → t.account.noPassword = none)
    (r : AuthReq) : wastedAfter cfg y r = 0 := by
  unfold wastedAfter
  cases (cfg.translation && r.method != ascii "password" && r.service == ascii "ssh-connection" && isValidUsername r.user)
  · rfl
  · show wastedLazy y r [] = 0
    unfold wastedLazy
    split
    · rename_i t ht
      unfold wasted
      rw [passwordAccepted_nil (hy t ht), Bool.and_false, Bool.false_and]
      cases ([] : Bytes).isEmpty && t.user == r.user <;> rfl
    · rfl

theorem wastedStep_zero {cfg : AuthCfg} {y : Auth} (h : AuthInv cfg y) (hs : y.stop = false) {ev : AuthEv}
    (hn : PasswordsNeeded (y.step cfg ev).log) : wastedStep cfg y ev = 0 := by
  have hm := book_step h ev
  obtain ⟨w0, hw0, d, hl, hbook⟩ := hm
  clear hbook hw0 w0
  have hy : ∀ t, y.translation = some t → t.account.noPassword = none := by
    intro t ht
    have hacc : lastAccount y.log = y.translation.map fun t => (t.user, t.password, t.account) := by
      rcases h with ⟨h1, _⟩ | h1
      · exact h1.acc
      · exact h1.acc
    rw [ht] at hacc
    have := lastAccount_mem hacc
    exact hn _ _ _ (by rw [hl]; exact List.mem_append_left _ this)
  unfold wastedStep
  split
  · split
    · exact wastedAfter_zero hy _
    · rfl
  · split
    · exact wastedAfter_zero hy _
    · rfl
  · rename_i a
    split
    · rename_i r p ht
      have hp : PwOk cfg r p := by
        rcases h with ⟨_, h1 | ⟨_, h1⟩⟩ | h1
        · rw [hs] at h1; cases h1
        · rw [ht] at h1; exact h1.2.2.2
        · rcases h1.task with h2 | h2 <;> rw [ht] at h2 <;> simp at h2
      have ha : a.noPassword = none := by
        refine hn r.user p a ?_
        unfold Auth.step
        rw [hs]
        simp only [cond_false]
        rw [ht]
        show _ ∈ (Auth.translated cfg { y with task := none } r p (some a)).log
        have := books_accountKnown (cfg := cfg)
          (y := ({ y with task := none, translation := some { user := r.user, password := p, account := a } } : Auth).say
            (.account r.user p a)) (r := r) (password := p) (acct := a) (a := true) rfl
        obtain ⟨⟨d, h1, h2⟩, _, _⟩ := this
        change (Auth.translated cfg { y with task := none } r p (some a)).log = (y.log ++ [.account r.user p a]) ++ d at h1
        rw [h1]
        simp
      unfold wasted
      rcases hp with ⟨_, _, hm, _⟩ | ⟨hp, _⟩
      · have : r.plain = true := by
          unfold AuthReq.plain
          rw [hm]; decide
        rw [this]; simp
      · rw [hp, passwordAccepted_nil ha]; simp
    · rfl
  · rfl

/-- Nothing changes after the end. -/
theorem book_stopped {cfg : AuthCfg} {y : Auth} (hs : y.stop = true) (ev : AuthEv) : y.step cfg ev = y ∧ y.tally cfg ev = [] := by
  have h1 : y.step cfg ev = y := by unfold Auth.step; rw [hs]; rfl
  refine ⟨h1, ?_⟩
  unfold Auth.tally Auth.tallyStep
  rw [h1, hs]
  simp

theorem inv_authStep {cfg : AuthCfg} {y : Auth} (h : AuthInv cfg y) (ev : AuthEv) : AuthInv cfg (y.step cfg ev) := by
  rcases h with ⟨h1, h2⟩ | h1
  · exact pre_step h1 h2 ev
  · exact .inr (post_step h1 ev)

/-- The books of whole runs. -/
theorem book_run {cfg : AuthCfg} (evs : List AuthEv) : ∀ {y : Auth}, AuthInv cfg y →
    ∃ w d, (y.run cfg evs).log = y.log ++ d ∧ StepBook w y.task d (y.run cfg evs).task (y.tallies cfg evs) ∧
      (PasswordsNeeded (y.run cfg evs).log → w = 0) := by
  induction evs with
  | nil => intro y _; exact ⟨0, [], by simp [Auth.run], stepBook_calm (by simp) (.inl rfl) rfl rfl, fun _ => rfl⟩
  | cons ev evs ih =>
    intro y h
    obtain ⟨w2, d2, e2, b2, z2⟩ := ih (inv_authStep h ev)
    obtain ⟨w1, hw, d1, e1, b1⟩ := book_step h ev
    cases hs : y.stop
    · refine ⟨w1 + w2, d1 ++ d2, ?_, b1.append b2, ?_⟩
      · show ((y.step cfg ev).run cfg evs).log = _
        rw [e2, e1, List.append_assoc]
      · intro hn
        rw [z2 hn]
        have hn1 : PasswordsNeeded (y.step cfg ev).log := by
          intro u p a hm
          exact hn u p a (by
            show _ ∈ ((y.step cfg ev).run cfg evs).log
            rw [e2]
            exact List.mem_append_left _ hm)
        have := wastedStep_zero h hs hn1
        omega
    · have hst := book_stopped (cfg := cfg) hs ev
      have b1 : StepBook 0 y.task [] (y.step cfg ev).task (y.tally cfg ev) := by
        rw [hst.1, hst.2]
        exact stepBook_calm (by simp) (.inl rfl) rfl rfl
      refine ⟨0 + w2, [] ++ d2, ?_, b1.append b2, ?_⟩
      · show ((y.step cfg ev).run cfg evs).log = _
        rw [e2, hst.1]; rfl
      · intro hn
        rw [z2 hn]

theorem book_all (cfg : AuthCfg) (evs : List AuthEv) :
    ∃ w, StepBook w none (Auth.run cfg {} evs).log (Auth.run cfg {} evs).task (Auth.tallies cfg {} evs) ∧
      (PasswordsNeeded (Auth.run cfg {} evs).log → w = 0) := by
  obtain ⟨w, d, h1, h2, h3⟩ := book_run (cfg := cfg) evs (y := {}) (inv_run [])
  rw [show d = (Auth.run cfg {} evs).log from h1.symm] at h2
  exact ⟨w, h2, h3⟩

end Lukko
