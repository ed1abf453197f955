import Verif.Proof.TallyRun
import Verif.Proof.ServerAuth
/-
  Counters which are incremented only when packets are received and when a connection ends.
-/
namespace Lukko
open Spec Model

/-- Not one of these counters. -/
def inner : Tally → Bool
  | .count .received | .count .tarpit | .count .protocolError => false
  | _ => true

structure Inner (ts : List Tally) : Prop where
  recv : counted .received ts = 0
  tarpit : counted .tarpit ts = 0
  proto : counted .protocolError ts ≤ counted .publickeyFailed ts + counted .hostbasedFailed ts

theorem inner_nil : Inner [] := ⟨rfl, rfl, Nat.le_refl _⟩

theorem inner_append {a b : List Tally} (h1 : Inner a) (h2 : Inner b) : Inner (a ++ b) := by
  obtain ⟨a1, a2, a3⟩ := h1
  obtain ⟨b1, b2, b3⟩ := h2
  refine ⟨?_, ?_, ?_⟩ <;> simp only [counted_append] <;> omega

theorem inner_one {x : Tally} (h : inner x = true) : Inner [x] := by
  cases x with
  | tokens n => exact ⟨rfl, rfl, Nat.le_refl _⟩
  | count c => cases c <;> first | exact ⟨by decide, by decide, by decide⟩ | cases h

theorem inner_cons {x : Tally} {ts : List Tally} (h1 : inner x = true) (h2 : Inner ts) : Inner (x :: ts) :=
  inner_append (inner_one h1) h2

theorem inner_two {x z : Tally} (h : inner x = true) (h' : inner z = true) : Inner [x, z] := inner_cons h (inner_one h')

theorem inner_bif {a b : List Tally} {c : Bool} (h1 : Inner a) (h2 : Inner b) : Inner (bif c then a else b) := by
  cases c
  · exact h2
  · exact h1

theorem inner_ite {a b : List Tally} {c : Prop} [Decidable c] (h1 : Inner a) (h2 : Inner b) : Inner (if c then a else b) := by
  by_cases h : c
  · rw [if_pos h]; exact h1
  · rw [if_neg h]; exact h2

theorem inner_keySignature (cfg : AuthCfg) (r : AuthReq) (k : KeyReq) (sig : Bytes) :
    Inner (tallyKeySignature cfg r k sig) := by
  unfold tallyKeySignature
  split
  · exact inner_one rfl
  · split <;> exact inner_one rfl

theorem inner_keyAccepted (cfg : AuthCfg) (r : AuthReq) (k : KeyReq) : Inner (tallyKeyAccepted cfg r k) := by
  unfold tallyKeyAccepted
  refine inner_bif ⟨by decide, by decide, by decide⟩ (inner_bif inner_nil ?_)
  split
  · exact inner_nil
  · exact inner_keySignature ..

theorem inner_publickey (cfg : AuthCfg) (y : Auth) (r : AuthReq) : Inner (y.tallyPublickey cfg r) := by
  unfold Auth.tallyPublickey
  split
  · exact inner_nil
  · refine inner_cons rfl ?_
    split
    · exact inner_keyAccepted ..
    · exact inner_bif inner_nil (inner_one rfl)

theorem inner_hostBased (cfg : AuthCfg) (r : AuthReq) : Inner (tallyHostBased cfg r) := by
  unfold tallyHostBased tallyHostAccepted
  split
  · exact inner_nil
  · split
    · exact inner_two rfl rfl
    · refine inner_bif ⟨by decide, by decide, by decide⟩ ?_
      split
      · exact inner_one rfl
      · split <;> exact inner_one rfl

theorem inner_byMethod (cfg : AuthCfg) (y : Auth) (r : AuthReq) (b : Bool) : Inner (y.tallyMethod cfg r b) := by
  unfold Auth.tallyMethod
  exact inner_ite (inner_publickey ..) (inner_ite (inner_hostBased ..) (inner_bif inner_nil (inner_ite (inner_one rfl)
    (inner_two rfl rfl))))

theorem inner_account (cfg : AuthCfg) (y : Auth) (r : AuthReq) (p : Bytes) (a : Account) : Inner (y.tallyAccount cfg r p a) := by
  unfold Auth.tallyAccount
  refine inner_bif (inner_two rfl ?_) (inner_bif (inner_two rfl rfl) (inner_append (inner_bif (inner_one rfl) inner_nil)
    (inner_byMethod ..)))
  cases p.isEmpty <;> rfl

theorem inner_lazy (cfg : AuthCfg) (y : Auth) (r : AuthReq) (p : Bytes) : Inner (y.tallyLazy cfg r p) := by
  unfold Auth.tallyLazy
  split
  · exact inner_bif (inner_account ..) inner_nil
  · exact inner_nil

theorem inner_after (cfg : AuthCfg) (y : Auth) (r : AuthReq) : Inner (y.tallyAfter cfg r) := by
  unfold Auth.tallyAfter Auth.tallyTranslation
  refine inner_ite inner_nil (inner_bif (inner_one rfl) (inner_bif (inner_ite ?_ (inner_lazy ..)) (inner_bif (inner_one rfl)
    (inner_byMethod ..))))
  split
  · exact inner_nil
  · exact inner_bif (inner_one rfl) (inner_bif (inner_two rfl rfl) (inner_cons rfl (inner_lazy ..)))

theorem inner_resume (cfg : AuthCfg) (y : Auth) (t : AuthTask) (ev : AuthEv) : Inner (y.tallyResume cfg t ev) := by
  unfold Auth.tallyResume
  split
  · exact inner_after ..
  · unfold Auth.tallyTranslated
    split
    · exact inner_two rfl rfl
    · exact inner_account ..
  · unfold tallyHome
    split
    · exact inner_keyAccepted ..
    · exact inner_one rfl
  · exact inner_nil

/-- Requests in the log. -/
theorem loginRequests_append (a b) : loginRequests (a ++ b) = loginRequests a + loginRequests b := List.countP_append ..

theorem protocolErrors_append (a b) : protocolErrors (a ++ b) = protocolErrors a + protocolErrors b := List.countP_append ..

structure Outer (d : List AuthEntry) (ts : List Tally) : Prop where
  recv : counted .received ts ≤ loginRequests d
  tarpit : counted .tarpit ts ≤ counted .received ts
  proto : counted .protocolError ts ≤ counted .publickeyFailed ts + counted .hostbasedFailed ts

theorem outer_inner {d : List AuthEntry} {ts : List Tally} (h : Inner ts) : Outer d ts := by
  obtain ⟨h1, h2, h3⟩ := h
  exact ⟨by omega, by omega, h3⟩

theorem outer_packet (cfg : AuthCfg) (y : Auth) (msg : UInt8) (p : Bytes) (delay : Bool) (d : List AuthEntry) :
    Outer (.received msg p :: d) (y.tallyPacket cfg msg p delay) := by
  unfold Auth.tallyPacket
  split
  · exact outer_inner inner_nil
  · cases y.userAuth
    · exact outer_inner inner_nil
    · cases (y.task.isSome && !allowedWhileOccupied msg)
      · simp only [Bool.not_true, cond_false]
        by_cases h5 : msg = MSG_SERVICE_REQUEST
        · rw [if_pos h5]
          refine outer_inner ?_
          unfold tallyService
          split
          · exact inner_nil
          · exact inner_ite inner_nil (inner_one rfl)
        · rw [if_neg h5]
          by_cases h50 : msg = MSG_USERAUTH_REQUEST
          · rw [if_pos h50]
            cases y.authenticated
            · cases y.haveService
              · exact outer_inner inner_nil
              · simp only [cond_false, Bool.not_true]
                have hr : 1 ≤ loginRequests (.received msg p :: d) := by
                  unfold loginRequests
                  rw [List.countP_cons, h50]
                  exact Nat.le_add_left _ _
                unfold Auth.tallyRequest
                split
                · exact outer_inner inner_nil
                · rename_i r _
                  cases delay
                  · obtain ⟨h1, h2, h3⟩ := inner_after cfg y r
                    refine ⟨?_, ?_, ?_⟩ <;> simp only [cond_false, counted_count] <;> simp <;> omega
                  · exact ⟨hr, Nat.le_refl _, Nat.le_refl _⟩
            · exact outer_inner inner_nil
          · rw [if_neg h50]
            exact outer_inner inner_nil
      · exact outer_inner inner_nil

theorem outer_step {cfg : AuthCfg} {y : Auth} {ev : AuthEv} {d : List AuthEntry} (hd : (y.step cfg ev).log = y.log ++ d) :
    Outer d (y.tallyStep cfg ev) := by
  cases hs : y.stop
  · have hu : ∀ ev, (match y.task with | none => [] | some t => y.tallyResume cfg t ev) = y.tallyStep cfg ev →
        Outer d (y.tallyStep cfg ev) := by
      intro ev h
      rw [← h]
      split
      · exact outer_inner inner_nil
      · exact outer_inner (inner_resume ..)
    cases ev with
    | packet m p b =>
      have : ∃ d', d = .received m p :: d' := by
        have h1 : (y.step cfg (.packet m p b)).log = ((y.say (.received m p)).packet cfg m p b).log := by
          unfold Auth.step; rw [hs]; rfl
        obtain ⟨⟨d', hd', _⟩, _⟩ := grew_packet (cfg := cfg) (y := y.say (.received m p)) (m := m) (p := p) (d := b)
        rw [h1, hd'] at hd
        refine ⟨d', ?_⟩
        have hd2 : y.log ++ ([.received m p] ++ d') = y.log ++ d := by rw [← List.append_assoc]; exact hd
        exact (List.append_cancel_left hd2).symm
      obtain ⟨d', rfl⟩ := this
      unfold Auth.tallyStep
      rw [hs]
      exact outer_packet ..
    | authTimeout =>
      unfold Auth.tallyStep
      rw [hs]
      refine outer_inner ?_
      simp only [cond_false]
      exact inner_bif inner_nil (inner_one rfl)
    | encrypted => rw [tallyStep_unseen (ev := .encrypted) trivial]; exact outer_inner inner_nil
    | targetSuccess => rw [tallyStep_unseen (ev := .targetSuccess) trivial]; exact outer_inner inner_nil
    | targetPacket m p => rw [tallyStep_unseen (ev := (.targetPacket m p)) trivial]; exact outer_inner inner_nil
    | targetDisconnecting => rw [tallyStep_unseen (ev := .targetDisconnecting) trivial]; exact outer_inner inner_nil
    | targetGone => rw [tallyStep_unseen (ev := .targetGone) trivial]; exact outer_inner inner_nil
    | closed => rw [tallyStep_unseen (ev := .closed) trivial]; exact outer_inner inner_nil
    | timer => exact hu _ (by unfold Auth.tallyStep; rw [hs]; rfl)
    | translated a => exact hu _ (by unfold Auth.tallyStep; rw [hs]; rfl)
    | home t => exact hu _ (by unfold Auth.tallyStep; rw [hs]; rfl)
    | connected ok => exact hu _ (by unfold Auth.tallyStep; rw [hs]; rfl)
  · unfold Auth.tallyStep
    rw [hs]
    exact outer_inner inner_nil

theorem counted_disconnect (d : List AuthEntry) :
    counted .protocolError (d.flatMap tallyDisconnect) = protocolErrors d ∧
    ∀ c, c ≠ .protocolError → counted c (d.flatMap tallyDisconnect) = 0 := by
  have h0 : ∀ c, c ≠ .protocolError → counted c (d.flatMap tallyDisconnect) = 0 := by
    intro c hc
    unfold counted
    rw [List.countP_eq_zero]
    intro x hx he
    have := tallyDisconnect_only d x hx
    rw [eq_of_beq he] at this
    exact hc (by injection this)
  refine ⟨?_, h0⟩
  clear h0
  induction d with
  | nil => rfl
  | cons e d ih =>
    rw [List.flatMap_cons, counted_append, ih, Nat.add_comm]
    unfold protocolErrors
    rw [List.countP_cons]
    congr 1
    cases e with
    | disconnected n =>
      show counted .protocolError (bif [2, 3, 5, 6, 8, 15].contains n then [.count .protocolError] else []) =
        if [2, 3, 5, 6, 8, 15].contains n = true then 1 else 0
      cases [2, 3, 5, 6, 8, 15].contains n <;> rfl
    | _ => rfl

/-- These counters, for the entries `d`. -/
structure OuterBook (d : List AuthEntry) (ts : List Tally) : Prop where
  recv : counted .received ts ≤ loginRequests d
  tarpit : counted .tarpit ts ≤ counted .received ts
  proto1 : protocolErrors d ≤ counted .protocolError ts
  proto2 : counted .protocolError ts ≤ protocolErrors d + counted .publickeyFailed ts + counted .hostbasedFailed ts

theorem outer_tally {cfg : AuthCfg} {y : Auth} {ev : AuthEv} {d : List AuthEntry} (hd : (y.step cfg ev).log = y.log ++ d) :
    OuterBook d (y.tally cfg ev) := by
  obtain ⟨h1, h2, h3⟩ := outer_step hd
  have hd' : (y.step cfg ev).log.drop y.log.length = d := by rw [hd]; simp
  obtain ⟨h4, h5⟩ := counted_disconnect d
  have h6 := h5 .received (by decide)
  have h7 := h5 .tarpit (by decide)
  have h8 := h5 .publickeyFailed (by decide)
  have h9 := h5 .hostbasedFailed (by decide)
  unfold Auth.tally
  rw [hd']
  refine ⟨?_, ?_, ?_, ?_⟩ <;> simp only [counted_append] <;> omega

theorem outer_run {cfg : AuthCfg} (evs : List AuthEv) : ∀ {y : Auth}, AuthInv cfg y → ∃ d, (y.run cfg evs).log = y.log ++ d ∧
    OuterBook d (y.tallies cfg evs) := by
  induction evs with
  | nil => intro y _; exact ⟨[], by simp [Auth.run], Nat.le_refl _, Nat.le_refl _, Nat.le_refl _, Nat.le_refl _⟩
  | cons ev evs ih =>
    intro y h
    obtain ⟨d2, e2, a2, b2, c2, f2⟩ := ih (inv_authStep h ev)
    obtain ⟨_, _, d1, e1, _⟩ := book_step h ev
    obtain ⟨a1, b1, c1, f1⟩ := outer_tally e1
    refine ⟨d1 ++ d2, ?_, ?_⟩
    · show ((y.step cfg ev).run cfg evs).log = _
      rw [e2, e1, List.append_assoc]
    · show OuterBook _ (_ ++ _)
      refine ⟨?_, ?_, ?_, ?_⟩ <;> simp only [counted_append, loginRequests_append, protocolErrors_append] <;> omega

theorem outer_all (cfg : AuthCfg) (evs : List AuthEv) :
    OuterBook (Auth.run cfg {} evs).log (Auth.tallies cfg {} evs) := by
  obtain ⟨d, h1, h2⟩ := outer_run (cfg := cfg) evs (y := {}) (inv_run [])
  rw [show d = (Auth.run cfg {} evs).log from h1.symm] at h2
  exact h2

end Lukko
