import Verif.Proof.GatewayAuth
import Verif.Proof.Caller
/-
  What an event does to the connection to a target.
-/
namespace Lukko
open Spec Model

variable {σ : Type} {x : CallerEnv σ}

/-- Nothing but messages which are not taken for the end of the login. -/
structure LoginWaits (t t' : Target) : Prop where
  log : ∃ es, t'.log = t.log ++ es ∧ .loggedIn ∉ es
  auth : t'.authenticated = t.authenticated

theorem LoginWaits.rfl' {t : Target} : LoginWaits t t := ⟨⟨[], by simp, by simp⟩, rfl⟩

theorem LoginWaits.trans {a b c : Target} (h : LoginWaits a b) (h' : LoginWaits b c) : LoginWaits a c := by
  obtain ⟨d, e1, e2⟩ := h.log
  obtain ⟨e, f1, f2⟩ := h'.log
  refine ⟨⟨d ++ e, by rw [f1, e1, List.append_assoc], fun hm => ?_⟩, h'.auth.trans h.auth⟩
  rcases List.mem_append.mp hm with hm | hm
  · exact e2 hm
  · exact f2 hm

theorem LoginWaits.same {t t' : Target} (h : t'.log = t.log) (h' : t'.authenticated = t.authenticated) : LoginWaits t t' :=
  ⟨⟨[], by simp [h], by simp⟩, h'⟩

theorem LoginWaits.one {t t' : Target} {e : TargetEntry} (h : t'.log = t.log ++ [e]) (hn : e ≠ .loggedIn) (h' : t'.authenticated = t.authenticated) :
    LoginWaits t t' := ⟨⟨[e], h, by simpa using fun he => hn he.symm⟩, h'⟩

theorem waits_lost {cfg} {t : Target} : (t.step cfg .lost).log = t.log ∧ (t.step cfg .lost).authenticated = t.authenticated := by
  unfold Target.step
  split <;> exact ⟨rfl, rfl⟩

theorem waits_onService {cfg} {t : Target} : LoginWaits t (t.onService cfg) := by
  unfold Target.onService
  split
  · exact .same rfl rfl
  · unfold Target.sendHostRequest
    split
    · exact .same rfl rfl
    · split
      · exact .same rfl rfl
      · exact .same rfl rfl
      · exact LoginWaits.one rfl (by simp) rfl

theorem waits_auth {cfg} {t : Target} {st m p} (h : ¬ (m = MSG_USERAUTH_SUCCESS ∧ st = .request)) :
    LoginWaits t (t.authPacket cfg st m p) := by
  unfold Target.authPacket
  split
  · exact .same rfl rfl
  split
  · unfold Target.serviceAccept
    split
    · exact .same rfl rfl
    · split
      · exact LoginWaits.trans (b := { t with auth := some .service }) (.same rfl rfl) waits_onService
      · exact .same rfl rfl
  split
  · split
    · exact .same rfl rfl
    · exact LoginWaits.one (e := .refused) rfl (by simp) rfl
  split
  · rename_i hm
    split
    · exact .same rfl rfl
    · rename_i hst
      exact absurd ⟨hm, Classical.not_not.mp hst⟩ h
  split
  · split
    · exact .same rfl rfl
    · exact .rfl'
  · exact .rfl'

/-- A message of the target. -/
theorem target_moved {cfg} {t : Target} (h : TargetInv cfg t) (ho : t.over = false) (m : UInt8) (p : Bytes) :
    (t.authenticated = true ∧ t.step cfg (.packet m p) = t.say (.received m p)) ∨
    (t.authenticated = false ∧ LoginWaits t (t.step cfg (.packet m p))) ∨
    (t.authenticated = false ∧ t.auth = some .request ∧ m = 52 ∧ (t.step cfg (.packet m p)).over = false ∧
      (t.step cfg (.packet m p)).authenticated = true ∧
      (t.step cfg (.packet m p)).log = t.log ++ [.received m p, .loggedIn]) := by
  have hstep : t.step cfg (.packet m p) = match t.auth with
      | none => t.say (.received m p)
      | some st => (t.say (.received m p)).authPacket cfg st m p := by
    simp only [Target.step, ho, h.sane, Bool.false_eq_true, or_self, if_false]
    cases t.auth <;> rfl
  cases ha : t.authenticated with
  | true =>
    refine .inl ⟨rfl, ?_⟩
    rw [hstep, h.after (h.known.mp ha)]
  | false =>
    refine .inr ?_
    have hsay : LoginWaits t (t.say (.received m p)) := LoginWaits.one rfl (by simp) rfl
    cases hst : t.auth with
    | none =>
      refine .inl ⟨rfl, ?_⟩
      rw [hstep, hst]
      exact hsay
    | some st =>
      by_cases hm : m = MSG_USERAUTH_SUCCESS ∧ st = .request
      · obtain ⟨rfl, rfl⟩ := hm
        have henc : t.encrypted = true := by
          cases he : t.encrypted with
          | true => rfl
          | false => rw [(h.before he).1] at hst; cases hst
        have e : (t.say (.received MSG_USERAUTH_SUCCESS p)).authPacket cfg .request MSG_USERAUTH_SUCCESS p =
            { (t.say (.received MSG_USERAUTH_SUCCESS p)).say .loggedIn with auth := none, authenticated := true } := by
          simp only [Target.authPacket, Target.say, henc]
          rfl
        refine .inr ⟨rfl, rfl, rfl, ?_⟩
        rw [hstep, hst]
        simp only [e]
        exact ⟨ho, trivial, by simp [Target.say]⟩
      · refine .inl ⟨rfl, ?_⟩
        rw [hstep, hst]
        exact hsay.trans (waits_auth hm)

theorem waits_encrypted {cfg} {t : Target} : LoginWaits t (t.step cfg .encrypted) := by
  unfold Target.step
  split
  · exact .rfl'
  simp only
  split
  · exact .rfl'
  · unfold Target.onEncrypted
    split
    · exact .same rfl rfl
    · simp only
      split
      · exact .same rfl rfl
      · exact LoginWaits.one rfl (by simp) rfl

structure CallerMoved (c c' : Caller σ) : Prop where
  given : c'.given = c.given
  live : c'.live = true → c.live = true
  log : ∃ es, c'.login.log = c.login.log ++ es ∧ (es ≠ [] → c.live = true) ∧
    (c.login.authenticated = true ∧ c'.login.authenticated = true ∧ (es = [] ∨ ∃ m p, es = [.received m p]) ∨
     c.login.authenticated = false ∧ c'.login.authenticated = false ∧ .loggedIn ∉ es ∨
     c.login.authenticated = false ∧ c'.login.authenticated = true ∧ c'.live = true ∧ ∃ m p, es = [.received m p, .loggedIn])

theorem CallerMoved.rfl' {c : Caller σ} : CallerMoved c c := by
  refine ⟨rfl, id, [], by simp, fun h => absurd rfl h, ?_⟩
  cases c.login.authenticated with
  | true => exact .inl ⟨rfl, rfl, .inl rfl⟩
  | false => exact .inr (.inl ⟨rfl, rfl, by simp⟩)

theorem settle_inv {t : Model.Trans σ} {y₀ y : Target} {g : List Bytes} {c' : Caller σ}
    (h : ({ trans := t, login := y₀, given := g } : Caller σ).settle x y = some c') :
    c'.given = g ∧ c'.login.log = y.log ∧ c'.login.authenticated = y.authenticated ∧ (c'.live = true → y.over = false) := by
  unfold Caller.settle at h
  cases hf : y.fault with
  | true => rw [hf] at h; cases h
  | false =>
    simp only [hf, cond_false, Option.bind_eq_some_iff, Option.map_eq_some_iff] at h
    obtain ⟨t₁, -, t₂, -, rfl⟩ := h
    cases hl : t₂.live with
    | true => exact ⟨rfl, rfl, rfl, fun hc => (Caller.live_iff.mp hc).2⟩
    | false =>
      have hw := waits_lost (cfg := ({ trans := t, login := y₀, given := g } : Caller σ).cfg x) (t := y)
      refine ⟨rfl, hw.1, hw.2, fun hc => ?_⟩
      have := (Caller.live_iff.mp hc).1
      simp only [hl] at this
      cases this

theorem moved_quiet {s : Caller σ} {t : Model.Trans σ} {y : Target} {c' : Caller σ}
    (h : ({ s with trans := t } : Caller σ).settle x y = some c') (hl : s.live = true) (hq : LoginWaits s.login y) (ha : s.login.authenticated = false) :
    CallerMoved s c' := by
  obtain ⟨h1, h2, h3, h4⟩ := settle_inv h
  obtain ⟨es, e1, e2⟩ := hq.log
  exact ⟨h1, fun _ => hl, es, by rw [h2, e1], fun _ => hl, .inr (.inl ⟨ha, by rw [h3, hq.auth, ha], e2⟩)⟩

theorem moved_same {s : Caller σ} {t : Model.Trans σ} {c' : Caller σ}
    (h : ({ s with trans := t } : Caller σ).settle x s.login = some c') (hl : c'.live = true → s.live = true) : CallerMoved s c' := by
  obtain ⟨h1, h2, h3, h4⟩ := settle_inv h
  refine ⟨h1, hl, [], by rw [h2]; simp, fun hc => absurd rfl hc, ?_⟩
  cases ha : s.login.authenticated with
  | true => exact .inl ⟨rfl, by rw [h3, ha], .inl rfl⟩
  | false => exact .inr (.inl ⟨rfl, by rw [h3, ha], by simp⟩)

theorem settle_live {s : Caller σ} {t : Model.Trans σ} {y : Target} {c' : Caller σ} (h : s.settle x y = some c')
    (hs : s.trans = t) (hl : c'.live = true) : t.live = true := by
  subst hs
  unfold Caller.settle at h
  cases hf : y.fault with
  | true => rw [hf] at h; cases h
  | false =>
    simp only [hf, cond_false, Option.bind_eq_some_iff, Option.map_eq_some_iff] at h
    obtain ⟨t₁, h1, t₂, h2, rfl⟩ := h
    have hl2 : t₂.live = true := (Caller.live_iff.mp hl).1
    cases ht : s.trans.live with
    | true => rfl
    | false =>
      exfalso
      have e1 : t₁ = s.trans := by
        cases hc : y.authenticated && !s.login.authenticated with
        | false => rw [hc] at h1; cases h1; rfl
        | true =>
          rw [hc] at h1
          simp only [cond_true, Trans.setAuthenticated, ht, cond_false] at h1
          cases h1
          rfl
      subst e1
      have : ∀ (ps : List Bytes) (t₂ : Model.Trans σ), s.trans.sendAll x.trans ps = some t₂ → t₂ = s.trans := by
        intro ps
        induction ps with
        | nil => intro t₂ h; cases h; rfl
        | cons p ps ih =>
          intro t₂ h
          simp only [Trans.sendAll, Trans.step, ht, cond_false, Option.bind_some] at h
          exact ih t₂ h
      rw [this _ _ h2, ht] at hl2
      cases hl2

theorem caller_moved (hx : EnvOk x.trans) (hg : x.login.Good) {c c' : Caller σ} (h : CInv x c) {ev : CallerEvent}
    (hns : ∀ p, ev ≠ .send p) (hstep : c.step x ev = some c') : CallerMoved c c' := by
  cases ev with
  | send p => exact absurd rfl (hns p)
  | lost =>
    cases hstep
    refine ⟨rfl, fun hc => ?_, [], by rw [waits_lost.1]; simp, fun hc => absurd rfl hc, ?_⟩
    · have := (Caller.live_iff.mp hc).2
      simp only [target_lost (h.target hg).sane] at this
      cases this
    · rw [waits_lost.2]
      cases c.login.authenticated with
      | true => exact .inl ⟨rfl, rfl, .inl rfl⟩
      | false => exact .inr (.inl ⟨rfl, rfl, by simp⟩)
  | io ev =>
    simp only [Caller.step] at hstep
    cases hc : ev.isIo && (c.live || !ev.needsLive) with
    | false => rw [hc] at hstep; cases hstep; exact .rfl'
    | true =>
      rw [hc, cond_true, Option.bind_eq_some_iff] at hstep
      rw [Bool.and_eq_true] at hc
      obtain ⟨t, h1, h2⟩ := hstep
      refine moved_same h2 fun hl => ?_
      have := (io_posts hc.1 h1).2 (settle_live h2 rfl hl)
      exact Caller.live_iff.mpr ⟨this, (settle_inv h2).2.2.2 hl⟩
  | ready d =>
    simp only [Caller.step] at hstep
    cases hl : c.live with
    | false => rw [hl] at hstep; cases hstep; exact .rfl'
    | true =>
      rw [hl, cond_true] at hstep
      obtain ⟨htl, hov⟩ := Caller.live_iff.mp hl
      unfold Caller.ready at hstep
      simp only [Option.bind_eq_some_iff] at hstep
      obtain ⟨t, h1, h2⟩ := hstep
      split at h2
      · rename_i m p hin
        cases he : c.login.encrypted with
        | true =>
          rw [he] at h1 h2
          simp only [cond_true] at h1 h2
          have hie : c.trans.kx.kx.isEncrypted = true := by rw [← h.enc]; exact he
          rw [hie, cond_true] at h2
          have hti := h.target hg
          rcases target_moved hti hov m p with ⟨a1, a2⟩ | ⟨a1, a2⟩ | ⟨a1, a2, rfl, a4, a5, a6⟩
          · obtain ⟨g1, g2, g3, g4⟩ := settle_inv h2
            rw [a2] at g2 g3
            exact ⟨g1, fun _ => hl, [.received m p], by rw [g2]; rfl, fun _ => hl, .inl ⟨a1, by rw [g3]; exact a1, .inr ⟨m, p, rfl⟩⟩⟩
          · exact moved_quiet h2 hl a2 a1
          · have g := settle_inv h2
            refine ⟨g.1, fun _ => hl, [.received 52 p, .loggedIn], by rw [g.2.1, a6], fun _ => hl, .inr (.inr ⟨a1, by rw [g.2.2.1]; exact a5, ?_, 52, p, rfl⟩)⟩
            -- the connection goes on
            have hks := Trans.live_stop htl
            have hv : c.trans.kx.kx.versionExchanged = true := by
              cases hv : c.trans.kx.kx.versionExchanged with
              | true => rfl
              | false =>
                simp only [Trans.incoming, hv, Bool.and_false, cond_false] at hin
                cases hin
            have hp := ready_posts htl hv h1
            rw [hin] at hp
            obtain ⟨k1, k2, -⟩ := hp
            have hcl : c.login.claim d (52 :: p) = .claimed := by
              simp only [Target.claim, a2]
              rfl
            have hkx : t.kx.stop = none ∧ t.kx.kx.isEncrypted = true ∧ t.kx.kx.authenticated = c.trans.kx.kx.authenticated := by
              rw [k1, hcl]
              have hin' := (Bool.and_eq_true _ _ ▸ hie : c.trans.kx.kx.inputEncrypted = true ∧ c.trans.kx.kx.outputEncrypted = true)
              generalize c.trans.kx = y at hks hv hin'
              obtain ⟨k, st⟩ := y
              simp only at hks hv hin'
              subst hks
              simp [KxSys.step, hv, Kx.handleRawPacket, KxSys.finish, Kx.emit, Kx.handlePacket, hin'.1, hin'.2, Kx.handlePacket₂, Kx.isEncrypted]
            have htlive : t.live = true := by
              simp only [Trans.live, hkx.1, k2]
              simp only [Trans.live, Bool.and_eq_true] at htl
              simp [htl.1]
            have hti' : TargetInv (c.cfg x) (c.login.step (c.cfg x) (.packet 52 p)) :=
              targetInv_of (hg.session _) (target_last h.login _)
            obtain ⟨-, hf⟩ : True ∧ Fit x.trans .client t := by
              obtain ⟨t', f1, f2⟩ := h.fit.step hx (ev := .ready (c.login.claim d)) (fun raw => target_claim_ok raw)
              rw [h1] at f1
              cases f1
              exact ⟨trivial, f2⟩
            obtain ⟨t', e1, e2, e3, -⟩ := caller_settle (y₀ := c.login) (g := c.given) hx hf hti'.sane (fun _ _ _ => ⟨hkx.2.1, by
              rw [hkx.2.2, ← h.flag hl]; exact a1⟩)
            have : ({ c with trans := t } : Caller σ) = { trans := t, login := c.login, given := c.given } := rfl
            rw [this, e1] at h2
            cases h2
            rw [htlive] at e3
            simp only [Caller.live, e3, htlive, cond_true, a4, Bool.not_false, Bool.and_self]
        | false =>
          rw [he] at h2
          simp only [cond_false] at h2
          have ha : c.login.authenticated = false := (h.early he).info.1
          cases hb : becameEncrypted c.trans.kx.kx t.kx.kx with
          | false =>
            rw [hb, cond_false] at h2
            exact moved_same h2 fun _ => hl
          | true =>
            rw [hb, cond_true, Option.bind_eq_some_iff] at h2
            obtain ⟨y, h3, h4⟩ := h2
            unfold Caller.onEncrypted at h3
            simp only at h3
            cases hie : t.kx.kx.isEncrypted with
            | false => rw [hie] at h3; cases h3
            | true =>
              rw [hie] at h3
              cases h3
              exact moved_quiet h4 hl waits_encrypted ha
      · exact moved_same h2 fun _ => hl

end Lukko
