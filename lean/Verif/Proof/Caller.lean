import Verif.Model.Caller
import Verif.Proof.ServerRun
import Verif.Prop.TargetLogin
/-
  Invariants of a connection to a target: no assertion fails, and both layers agree.
-/
namespace Lukko
open Spec Model

variable {σ : Type} {x : CallerEnv σ}

theorem targetMessages_append (a b : List TargetEntry) : targetMessages (a ++ b) = targetMessages a ++ targetMessages b := by
  simp [targetMessages]

theorem loginMessages_append (a b : List TargetEntry) : loginMessages (a ++ b) = loginMessages a ++ loginMessages b := by
  simp [loginMessages]

theorem sentEntry_eq (l : List TargetEntry) : l.filterMap sentEntry = loginMessages l := by
  rfl

/-! ### The login -/

/-- What an event may do to the login. -/
structure TargetGrew (t t' : Target) : Prop where
  log : ∃ es, t'.log = t.log ++ es ∧ targetMessages es = []
  enc : t'.encrypted = t.encrypted
  mono : t.authenticated = true → t'.authenticated = true

theorem TargetGrew.rfl' {t : Target} : TargetGrew t t := ⟨⟨[], by simp, rfl⟩, rfl, id⟩

theorem TargetGrew.trans {a b c : Target} (h : TargetGrew a b) (h' : TargetGrew b c) : TargetGrew a c := by
  obtain ⟨u, e1, d1⟩ := h.log
  obtain ⟨v, e2, d2⟩ := h'.log
  exact ⟨⟨u ++ v, by rw [e2, e1, List.append_assoc], by rw [targetMessages_append, d1, d2]; rfl⟩, h'.enc.trans h.enc,
    fun z => h'.mono (h.mono z)⟩

theorem TargetGrew.same {t t' : Target} (h1 : t'.log = t.log) (h2 : t'.encrypted = t.encrypted) (h3 : t'.authenticated = t.authenticated) :
    TargetGrew t t' := ⟨⟨[], by simp [h1], rfl⟩, h2, fun z => by rw [h3]; exact z⟩

theorem target_service {cfg : TargetCfg} {t : Target} : TargetGrew t (t.onService cfg) := by
  unfold Target.onService
  split
  · exact .same rfl rfl rfl
  · unfold Target.sendHostRequest
    split
    · exact .same rfl rfl rfl
    · split
      · exact .same rfl rfl rfl
      · exact .same rfl rfl rfl
      · exact ⟨⟨_, rfl, rfl⟩, rfl, id⟩

theorem grew_authPacket {cfg : TargetCfg} {t : Target} {st m p} : TargetGrew t (t.authPacket cfg st m p) := by
  unfold Target.authPacket
  split
  · exact .same rfl rfl rfl
  split
  · unfold Target.serviceAccept
    split
    · exact .same rfl rfl rfl
    · split
      · exact TargetGrew.trans (b := { t with auth := some .service }) (.same rfl rfl rfl) target_service
      · exact .same rfl rfl rfl
  split
  · split
    · exact .same rfl rfl rfl
    · exact ⟨⟨_, rfl, rfl⟩, rfl, id⟩
  split
  · split
    · exact .same rfl rfl rfl
    · exact ⟨⟨_, rfl, rfl⟩, rfl, fun _ => rfl⟩
  split
  · split
    · exact .same rfl rfl rfl
    · exact .rfl'
  · exact .rfl'

/-- A packet. -/
theorem target_packet {cfg : TargetCfg} {t : Target} {m p} (ho : t.over = false) (hf : t.fault = false) :
    (∃ es, (t.step cfg (.packet m p)).log = t.log ++ es ∧ targetMessages es = [m :: p] ∧ (t.auth = none → loginMessages es = [])) ∧
    (t.step cfg (.packet m p)).encrypted = t.encrypted ∧
    (t.authenticated = true → (t.step cfg (.packet m p)).authenticated = true) := by
  unfold Target.step
  rw [if_neg (by simp [ho, hf])]
  simp only
  cases ha : t.auth with
  | none => exact ⟨⟨_, rfl, rfl, fun _ => rfl⟩, rfl, id⟩
  | some st =>
    have h := grew_authPacket (cfg := cfg) (t := t.say (.received m p)) (st := st) (m := m) (p := p)
    obtain ⟨es, h1, h2⟩ := h.log
    refine ⟨⟨.received m p :: es, by rw [h1]; simp [Target.say], ?_, fun hc => by cases hc⟩, h.enc, h.mono⟩
    have : targetMessages (.received m p :: es) = (m :: p) :: targetMessages es := rfl
    rw [this, h2]

theorem target_encrypted {cfg : TargetCfg} :
    ({} : Target).step cfg .encrypted =
      { auth := some .serviceRequest, encrypted := true, log := [.sent 5 (str (ascii "ssh-userauth"))] } := by
  have hm : makeServiceRequest (ascii "ssh-userauth") =
    .ok ⟨[0, 0, 0, 0, 0, 5] ++ str (ascii "ssh-userauth")⟩ := by decide
  simp [Target.step, Target.onEncrypted, hm, Target.send, Target.say]

theorem target_lost {cfg : TargetCfg} {t : Target} (hf : t.fault = false) : t.step cfg .lost = { t with over := true } := by
  unfold Target.step
  split
  · rename_i h
    rw [hf] at h
    have : t.over = true := by simpa using h
    rw [← this]
  · rfl

/-- What the login can be before it has been told that the connection is encrypted. -/
def TargetFresh (t : Target) : Prop := t = {} ∨ t = { over := true }

theorem TargetFresh.run {t : Target} (h : TargetFresh t) (cfg : TargetCfg) : ∃ evs, t = Target.run cfg {} evs := by
  rcases h with rfl | rfl
  · exact ⟨[], rfl⟩
  · exact ⟨[.lost], rfl⟩

theorem TargetFresh.info {t : Target} (h : TargetFresh t) : t.authenticated = false ∧ t.log = [] ∧ t.fault = false := by
  rcases h with rfl | rfl <;> exact ⟨rfl, rfl, rfl⟩

theorem target_last {cfg : TargetCfg} {t : Target} (h : ∃ evs, t = Target.run cfg {} evs) (ev : TargetEv) :
    ∃ evs, t.step cfg ev = Target.run cfg {} evs := by
  obtain ⟨evs, h⟩ := h
  refine ⟨evs ++ [ev], ?_⟩
  simp only [Target.run, List.foldl_append, List.foldl_cons, List.foldl_nil] at h ⊢
  rw [← h]

theorem targetInv_of {cfg : TargetCfg} (hc : cfg.Good) {t : Target} (h : ∃ evs, t = Target.run cfg {} evs) : TargetInv cfg t := by
  obtain ⟨evs, rfl⟩ := h
  exact TargetInv.run hc evs

/-! ### The handlers -/

theorem target_claim_ok {t : Target} {proxied : Bool} (raw : Bytes) : ClaimOk raw (t.claim proxied raw) := by
  cases raw with
  | nil => exact .inl rfl
  | cons m p =>
    by_cases hm : some m ∈ [some (20 : UInt8), some 21, some 30, some 31]
    · left
      have hm' : m = 20 ∨ m = 21 ∨ m = 30 ∨ m = 31 := by simpa using hm
      have h1 : shouldProxy m = false := by rcases hm' with rfl | rfl | rfl | rfl <;> decide
      have h2 : isConnectionMessage m = false := by rcases hm' with rfl | rfl | rfl | rfl <;> decide
      have h3 : m ≠ MSG_SERVICE_ACCEPT ∧ ¬ (m = MSG_USERAUTH_FAILURE ∨ m = MSG_USERAUTH_SUCCESS) := by
        rcases hm' with rfl | rfl | rfl | rfl <;> decide
      unfold Target.claim
      cases t.auth with
      | none => simp only [h1, Bool.and_false, cond_false]
      | some st => simp only [if_neg h3.1, if_neg h3.2, h2, Bool.false_and, cond_false]
    · exact .inr hm

/-! ### Both layers -/

theorem Model.TargetCfg.Good.session {c : TargetCfg} (h : c.Good) (sid : Bytes) : ({ c with sessionId := sid } : TargetCfg).Good :=
  ⟨h.key, h.sized, h.alg⟩

structure CInv (x : CallerEnv σ) (s : Caller σ) : Prop where
  fit : Fit x.trans .client s.trans
  told : EncTold s.trans.kx.kx
  enc : s.login.encrypted = s.trans.kx.kx.isEncrypted
  early : s.login.encrypted = false → TargetFresh s.login
  login : ∃ evs, s.login = Target.run (s.cfg x) {} evs
  flag : s.live = true → s.login.authenticated = s.trans.kx.kx.authenticated
  recv : targetMessages s.login.log <+: receivedEncrypted s.trans.kx.kx.log
  recvEq : s.live = true → targetMessages s.login.log = receivedEncrypted s.trans.kx.kx.log
  clear : ∀ p ∈ postsOfEpoch s.trans.posts, IsTransportMessage p
  answers : s.trans.live = true → (loginMessages s.login.log).Sublist (packetsSent s.trans.posts)
  later : s.given ≠ [] → s.login.authenticated = true
  upper : upperSent s.trans.posts <+: (loginMessages s.login.log ++ s.given).filter isUpper
  upperEq : s.trans.live = true → upperSent s.trans.posts = (loginMessages s.login.log ++ s.given).filter isUpper

theorem CInv.init (x : CallerEnv σ) : CInv x ({} : Caller σ) where
  fit := Fit.init .client
  told := rfl
  enc := rfl
  early := fun _ => .inl rfl
  login := ⟨[], rfl⟩
  flag := fun _ => rfl
  recv := List.nil_prefix
  recvEq := fun _ => rfl
  clear := by intro p hp; cases hp
  answers := fun _ => List.nil_sublist _
  later := fun h => absurd rfl h
  upper := List.nil_prefix
  upperEq := fun _ => rfl

theorem Model.Caller.live_iff {s : Caller σ} : s.live = true ↔ s.trans.live = true ∧ s.login.over = false := by
  simp [Caller.live]

theorem CInv.target (hg : x.login.Good) {s : Caller σ} (h : CInv x s) : TargetInv (s.cfg x) s.login :=
  targetInv_of (hg.session _) h.login

theorem caller_settle {t : Model.Trans σ} {y₀ y : Target} {g : List Bytes} (hx : EnvOk x.trans) (hf : Fit x.trans .client t)
    (hy : y.fault = false)
    (ha : y.authenticated = true → y₀.authenticated = false → t.live = true →
      t.kx.kx.isEncrypted = true ∧ t.kx.kx.authenticated = false) :
    ∃ t', ({ trans := t, login := y₀, given := g } : Caller σ).settle x y =
        some { trans := t', login := bif t.live then y else { y with over := true }, given := g } ∧
      Fit x.trans .client t' ∧ t'.live = t.live ∧
      t'.kx.kx = { t.kx.kx with authenticated := t.kx.kx.authenticated || (t.live && y.authenticated && !y₀.authenticated) } ∧
      t'.posts = t.posts ++ bif t.live then (loginMessages (y.log.drop y₀.log.length)).map .packet else [] := by
  have h1 : ∃ t₁, (bif y.authenticated && !y₀.authenticated then t.setAuthenticated x.trans else some t) = some t₁ ∧
      Fit x.trans .client t₁ ∧ t₁.live = t.live ∧ t₁.posts = t.posts ∧
      t₁.kx.kx = { t.kx.kx with authenticated := t.kx.kx.authenticated || (t.live && y.authenticated && !y₀.authenticated) } := by
    cases hc : y.authenticated && !y₀.authenticated with
    | false => exact ⟨t, rfl, hf, rfl, rfl, by rw [Bool.and_assoc, hc]; simp⟩
    | true =>
      simp only [cond_true, Trans.setAuthenticated]
      cases hl : t.live with
      | false => exact ⟨t, rfl, hf, hl, rfl, by simp⟩
      | true =>
        rw [Bool.and_eq_true, Bool.not_eq_true'] at hc
        obtain ⟨a1, a2⟩ := ha hc.1 hc.2 hl
        obtain ⟨t₁, e1, e2⟩ := hf.step hx (ev := .authenticated) trivial
        simp only [cond_true, a1, a2, Bool.not_false, Bool.and_self]
        refine ⟨t₁, e1, e2, ?_⟩
        simp only [Trans.step, hl, cond_true] at e1
        obtain ⟨b1, b2, ps, b3, -, b4⟩ := absorb_posts e1
        rw [step_authenticated (Trans.live_stop hl) a1 a2] at b1 b4
        simp only [List.drop_length, true_implies] at b4
        refine ⟨?_, by rw [b3, b4, List.append_nil], ?_⟩
        · rw [← hl]; simp only [Trans.live, b1, b2]
        · rw [b1]; simp [hc.1, hc.2]
  obtain ⟨t₁, e1, e2, e3, e4, e5⟩ := h1
  obtain ⟨t₂, f1, f2, f3, f4, f5⟩ := sendAll_posts (ps := loginMessages (y.log.drop y₀.log.length)) hx e2
  have hl2 : t₂.live = t.live := by rw [← e3]; simp only [Trans.live, f3, f4]
  refine ⟨t₂, ?_, f2, hl2, by rw [f3, e5], by rw [f5, e4, e3]⟩
  simp only [Caller.settle, hy, cond_false, e1, Option.bind_some, sentEntry_eq, f1, Option.map_some, hl2, target_lost hy]

/-- After an event of one of the layers, the other one follows. -/
theorem CInv.settle (hx : EnvOk x.trans) (hg : x.login.Good) {t : Model.Trans σ} {y₀ y : Target} {g : List Bytes}
    (fit : Fit x.trans .client t) (told : EncTold t.kx.kx) (enc : y.encrypted = t.kx.kx.isEncrypted)
    (early : y.encrypted = false → TargetFresh y)
    (login : ∃ evs, y = Target.run (({ trans := t, login := y₀, given := g } : Caller σ).cfg x) {} evs)
    (flag : t.live = true → y₀.over = false → y₀.authenticated = t.kx.kx.authenticated)
    (mono : y₀.authenticated = true → y.authenticated = true) (same : y₀.over = true → y = y₀)
    (recv : targetMessages y.log <+: receivedEncrypted t.kx.kx.log)
    (recvEq : t.live = true → y.over = false → targetMessages y.log = receivedEncrypted t.kx.kx.log)
    (clear : ∀ p ∈ postsOfEpoch t.posts, IsTransportMessage p)
    (answers : t.live = true → (loginMessages y₀.log).Sublist (packetsSent t.posts))
    (later : g ≠ [] → y₀.authenticated = true)
    (ext : ∃ es, y.log = y₀.log ++ es ∧ (g ≠ [] → loginMessages es = []))
    (upper : upperSent t.posts <+: (loginMessages y₀.log ++ g).filter isUpper)
    (upperEq : t.live = true → upperSent t.posts = (loginMessages y₀.log ++ g).filter isUpper) :
    ∃ s', ({ trans := t, login := y₀, given := g } : Caller σ).settle x y = some s' ∧ CInv x s' := by
  have hnew : y.authenticated = true → y₀.authenticated = false → t.live = true →
      t.kx.kx.isEncrypted = true ∧ t.kx.kx.authenticated = false := by
    intro h1 h2 h3
    constructor
    · rw [← enc]
      cases he : y.encrypted with
      | true => rfl
      | false => rw [(early he).info.1] at h1; cases h1
    · cases hs : y₀.over with
      | false => rw [← flag h3 hs]; exact h2
      | true => rw [same hs, h2] at h1; cases h1
  have hfault : y.fault = false := (targetInv_of (hg.session _) login).sane
  obtain ⟨t', e1, e2, e3, e4, e5⟩ := caller_settle (g := g) hx fit hfault hnew
  obtain ⟨es, hes, hgs⟩ := ext
  rw [hes, List.drop_left] at e5
  refine ⟨_, e1, ?_⟩
  have hlog : t'.kx.kx.log = t.kx.kx.log := by rw [e4]
  have hks : t'.kx.kx.ks = t.kx.kx.ks := by rw [e4]
  have hie : t'.kx.kx.isEncrypted = t.kx.kx.isEncrypted := by rw [e4, Kx.isEncrypted]
  have hcfg : ∀ z : Target, ({ trans := t', login := z, given := g } : Caller σ).cfg x = ({ trans := t, login := y₀, given := g } : Caller σ).cfg x := by
    intro z; simp only [Caller.cfg, hks]
  have htold : EncTold t'.kx.kx := by unfold EncTold; rw [hie, hlog]; exact told
  have hmix : (loginMessages y.log ++ g).filter isUpper = (loginMessages y₀.log ++ g).filter isUpper ++ (loginMessages es).filter isUpper := by
    rw [hes, loginMessages_append]
    by_cases hgn : g = []
    · subst hgn; simp
    · rw [hgs hgn]; simp
  have hclear : ∀ p ∈ postsOfEpoch t'.posts, IsTransportMessage p := by
    rw [e5]
    refine clear_append clear fun hk p hp => ?_
    cases hl : t.live with
    | false => rw [hl] at hp; cases hp
    | true =>
      rw [hl, cond_true] at hp
      have hne : y.encrypted = false := by
        rw [enc]
        cases he : t.kx.kx.isEncrypted with
        | false => rfl
        | true => exact absurd hk ((fit.encrypted_iff hx (Trans.live_stop hl)).2 he)
      have hnil := (early hne).info.2.1
      rw [hes] at hnil
      have : es = [] := (List.append_eq_nil_iff.mp hnil).2
      rw [this] at hp
      cases hp
  have hlater : g ≠ [] → y.authenticated = true := fun h => mono (later h)
  cases hl : t.live with
  | true =>
    rw [hl] at e3 e5
    simp only [cond_true] at e5 ⊢
    have hp : packetsSent t'.posts = packetsSent t.posts ++ loginMessages es := by
      rw [e5, packetsSent_append, packetsSent_map]
    have hup : upperSent t'.posts = (loginMessages y.log ++ g).filter isUpper := by
      rw [hmix, ← upperEq hl]
      unfold upperSent
      rw [hp, List.filter_append]
    refine ⟨e2, htold, by rw [hie]; exact enc, early, by rw [hcfg]; exact login, ?_, by rw [hlog]; exact recv, ?_, hclear, ?_, hlater,
      by rw [hup]; exact List.prefix_rfl, fun _ => hup⟩
    · intro hs
      have hy := (Caller.live_iff.mp hs).2
      simp only at hy
      simp only [e4, hl, Bool.true_and]
      cases h0 : y₀.over with
      | true => rw [same h0] at hy; rw [h0] at hy; cases hy
      | false =>
        rw [← flag hl h0]
        cases h1 : y₀.authenticated with
        | true => rw [mono h1]; rfl
        | false => simp
    · intro hs
      simp only [hlog]
      exact recvEq hl (Caller.live_iff.mp hs).2
    · intro _
      simp only [hes, loginMessages_append, hp]
      exact (answers hl).append (List.Sublist.refl _)
  | false =>
    rw [hl] at e3 e5
    simp only [cond_false, List.append_nil] at e5 ⊢
    have dead : ∀ z : Target, ({ trans := t', login := z, given := g } : Caller σ).live ≠ true := by
      intro z hz
      have := (Caller.live_iff.mp hz).1
      simp only [e3] at this
      cases this
    refine ⟨e2, htold, by rw [hie, ← enc], ?_, ?_, fun hs => absurd hs (dead _), by rw [hlog]; exact recv, fun hs => absurd hs (dead _), hclear, ?_,
      hlater, ?_, ?_⟩
    · intro he
      rcases early he with h | h
      · right; simp only [h]
      · right; simp only [h]
    · rw [hcfg, ← target_lost (cfg := ({ trans := t, login := y₀, given := g } : Caller σ).cfg x) hfault]
      exact target_last login .lost
    · intro hc
      simp only [e3] at hc
      cases hc
    · simp only [e5]
      exact upper.trans (by rw [hmix]; exact List.prefix_append _ _)
    · intro hc
      simp only [e3] at hc
      cases hc

theorem caller_cfg {t t' : Model.Trans σ} {y y' : Target} {g g' : List Bytes} (h : t'.kx.kx.ks.sessionId = t.kx.kx.ks.sessionId) :
    ({ trans := t', login := y', given := g' } : Caller σ).cfg x = ({ trans := t, login := y, given := g } : Caller σ).cfg x := by
  simp only [Caller.cfg, h]

/-- Only the transport layer does something. -/
theorem CInv.below (hx : EnvOk x.trans) (hg : x.login.Good) {s : Caller σ} (h : CInv x s) {t : Model.Trans σ} (fit : Fit x.trans .client t)
    (htold : EncTold t.kx.kx)
    (henc : t.kx.kx.isEncrypted = s.trans.kx.kx.isEncrypted) (hsid : s.login.encrypted = true → t.kx.kx.ks.sessionId = s.trans.kx.kx.ks.sessionId)
    (hauth : t.kx.kx.authenticated = s.trans.kx.kx.authenticated) (hlive : t.live = true → s.trans.live = true)
    (hrecv : receivedEncrypted s.trans.kx.kx.log <+: receivedEncrypted t.kx.kx.log)
    (hrecv' : t.live = true → receivedEncrypted t.kx.kx.log = receivedEncrypted s.trans.kx.kx.log)
    (hclear : ∀ p ∈ postsOfEpoch t.posts, IsTransportMessage p) (hsub : (packetsSent s.trans.posts).Sublist (packetsSent t.posts))
    (hup : upperSent t.posts = upperSent s.trans.posts) :
    ∃ s', ({ s with trans := t } : Caller σ).settle x s.login = some s' ∧ CInv x s' := by
  refine CInv.settle hx hg fit htold (by rw [henc]; exact h.enc) h.early ?_ ?_ id (fun _ => rfl) (h.recv.trans hrecv) ?_ hclear ?_ h.later
    ⟨[], by simp, fun _ => rfl⟩ (by rw [hup]; exact h.upper) (fun hl => by rw [hup]; exact h.upperEq (hlive hl))
  · cases he : s.login.encrypted with
    | false => exact (h.early he).run _
    | true => rw [caller_cfg (hsid he)]; exact h.login
  · intro hl hs
    rw [hauth]
    exact h.flag (Caller.live_iff.mpr ⟨hlive hl, hs⟩)
  · intro hl hs
    rw [hrecv' hl]
    exact h.recvEq (Caller.live_iff.mpr ⟨hlive hl, hs⟩)
  · intro hl
    exact (h.answers (hlive hl)).trans hsub

theorem CInv.io (hx : EnvOk x.trans) (hg : x.login.Good) {s : Caller σ} (h : CInv x s) {ev : TransEvent} (hio : ev.isIo = true) :
    ∃ s', ((s.trans.step x.trans ev).bind fun t => ({ s with trans := t } : Caller σ).settle x s.login) = some s' ∧ CInv x s' := by
  have hev : TransEventOk ev := by cases ev <;> first | trivial | cases hio
  obtain ⟨t, h1, h2⟩ := h.fit.step hx hev
  rw [h1, Option.bind_some]
  obtain ⟨h3, h4⟩ := io_posts hio h1
  rcases h3 with ⟨a, b⟩ | ⟨kev, k1, k2, a, b⟩
  · exact h.below hx hg h2 (by rw [a]; exact h.told) (by rw [a]) (fun _ => by rw [a]) (by rw [a]) h4 (by rw [a]; exact List.prefix_rfl)
      (fun _ => by rw [a]) (by rw [b]; exact h.clear) (by rw [b]; exact List.Sublist.refl _) (by rw [b])
  · have ht := step_tells (e := x.trans.kex) (y := s.trans.kx) k1
    obtain ⟨⟨ext, hl, hr⟩, -, -⟩ := other_still (e := x.trans.kex) (y := s.trans.kx) k2
    have hk := other_keeps (e := x.trans.kex) (y := s.trans.kx) k2
    have hrec : received ext = [] := by
      simp only [received, List.filterMap_eq_nil_iff]
      intro z hz
      cases z <;> first | rfl | exact absurd hz (hr _)
    have hre : receivedEncrypted t.kx.kx.log = receivedEncrypted s.trans.kx.kx.log := by
      rw [a, hl]; exact receivedEncrypted_quiet hrec
    have hp := posted_ok b (drop_sent ht) h.clear
    exact h.below hx hg h2 (by rw [a]; exact ht.told h.told) (by rw [a]; exact hk.1) (fun _ => by rw [a, hk.2]) (by rw [a]; exact ht.auth) h4
      (by rw [hre]; exact List.prefix_rfl) (fun _ => hre) hp.1 hp.2.1 (posted_upper b (drop_sent ht))

/-- A packet. -/
theorem CInv.ready (hx : EnvOk x.trans) (hg : x.login.Good) {s : Caller σ} (h : CInv x s) (hl : s.live = true) (d : Bool) :
    ∃ s', s.ready x d = some s' ∧ CInv x s' := by
  obtain ⟨htl, hst⟩ := Caller.live_iff.mp hl
  have hks := Trans.live_stop htl
  have hti := h.target hg
  generalize hcl : (bif s.login.encrypted then s.login.claim d else fun _ => Claim.unclaimed) = claim
  have hok : ∀ raw, ClaimOk raw (claim raw) := by
    intro raw
    rw [← hcl]
    cases s.login.encrypted with
    | false => exact .inl rfl
    | true => exact target_claim_ok raw
  obtain ⟨t, h1, h2⟩ := h.fit.step hx (ev := .ready claim) hok
  simp only [Caller.ready, hcl, h1, Option.bind_some]
  have nothing : t.kx = s.trans.kx → t.posts = s.trans.posts →
      ∃ s', ({ s with trans := t } : Caller σ).settle x s.login = some s' ∧ CInv x s' := by
    intro a b
    exact h.below hx hg h2 (by rw [a]; exact h.told) (by rw [a]) (fun _ => by rw [a]) (by rw [a]) (fun _ => htl)
      (by rw [a]; exact List.prefix_rfl) (fun _ => by rw [a]) (by rw [b]; exact h.clear) (by rw [b]; exact List.Sublist.refl _) (by rw [b])
  cases hv : s.trans.kx.kx.versionExchanged with
  | false =>
    obtain ⟨e1, e2⟩ := not_ready (x := x.trans) (t := s.trans) (by rw [hv, Bool.and_false]) (claim := claim)
    rw [h1] at e1
    cases e1
    rw [e2]
    exact nothing rfl rfl
  | true =>
    have hp := ready_posts htl hv h1
    cases hin : s.trans.incoming x.trans with
    | none =>
      rw [hin] at hp
      exact nothing hp.1 hp.2
    | some p =>
      rw [hin] at hp
      obtain ⟨a, b, c⟩ := hp
      have ht := step_tells (e := x.trans.kex) (y := s.trans.kx) (ev := .packet p (claim p)) (by simp)
      have htold : EncTold t.kx.kx := by rw [a]; exact ht.told h.told
      have hauth : t.kx.kx.authenticated = s.trans.kx.kx.authenticated := by rw [a]; exact ht.auth
      have hposts := posted_ok c (drop_sent ht) h.clear
      have hup := posted_upper c (drop_sent ht)
      obtain ⟨ext, hadd, hrec, -⟩ := packet_adds hx h.fit hks hv (hok p)
      have hlog : t.kx.kx.log = s.trans.kx.kx.log ++ .recv p :: ext := by rw [a]; exact hadd.log
      have hsid : s.login.encrypted = true → t.kx.kx.ks.sessionId = s.trans.kx.kx.ks.sessionId := by
        intro he
        rw [a]
        exact h.fit.session hx hks (by rw [← h.enc]; exact he) (hok p)
      have hcontains : t.kx.kx.isEncrypted = (s.trans.kx.kx.isEncrypted || ext.contains .encrypted) := by
        have h0 := h.told
        unfold EncTold at h0 htold
        rw [htold, hlog, h0]
        simp
      have hdrop : becameEncrypted s.trans.kx.kx t.kx.kx = ext.contains .encrypted := by
        unfold becameEncrypted
        rw [hlog, List.drop_left]
        simp
      have hin' := (h.fit.encrypted_iff hx hks).1
      cases p with
      | nil =>
        have hdead : t.live ≠ true := by
          intro hc
          have := Trans.live_stop hc
          rw [a] at this
          revert this
          generalize s.trans.kx = y at hks hv
          obtain ⟨k, st⟩ := y
          simp only at hks hv
          subst hks
          simp [KxSys.step, hv, Kx.handleRawPacket, KxSys.finish]
        have hie : t.kx.kx.isEncrypted = s.trans.kx.kx.isEncrypted := by
          rw [a]
          generalize s.trans.kx = y at hks hv
          obtain ⟨k, st⟩ := y
          simp only at hks hv
          subst hks
          simp [KxSys.step, hv, Kx.handleRawPacket, KxSys.finish, Kx.emit, Kx.isEncrypted]
        exact h.below hx hg h2 htold hie hsid hauth (fun _ => htl) (by rw [hlog]; exact receivedEncrypted_prefix)
          (fun hc => absurd hc hdead) hposts.1 hposts.2.1 hup
      | cons m q =>
        simp only
        cases he : s.login.encrypted with
        | true =>
          have hie : s.trans.kx.kx.isEncrypted = true := by rw [← h.enc]; exact he
          simp only [cond_true, hie]
          obtain ⟨⟨es, g1, g2, g2'⟩, g3, g4⟩ := target_packet (cfg := s.cfg x) hst hti.sane (m := m) (p := q)
          have hre : receivedEncrypted t.kx.kx.log = receivedEncrypted s.trans.kx.kx.log ++ [m :: q] := by
            rw [hlog]; exact receivedEncrypted_some (by rw [← hin']; exact hie) hrec
          have hmsg : targetMessages (s.login.step (s.cfg x) (.packet m q)).log = receivedEncrypted t.kx.kx.log := by
            rw [g1, targetMessages_append, g2, hre, h.recvEq hl]
          refine CInv.settle hx hg h2 htold (by rw [g3, he, hcontains, hie]; rfl) (fun hc => by rw [g3, he] at hc; cases hc) ?_ ?_ g4
            (fun hc => by rw [hst] at hc; cases hc) (by rw [hmsg]; exact List.prefix_rfl) (fun _ _ => hmsg) hposts.1 ?_ h.later
            ⟨es, g1, fun hgn => g2' (hti.after (hti.known.mp (h.later hgn)))⟩ (by rw [hup]; exact h.upper)
            (fun _ => by rw [hup]; exact h.upperEq htl)
          · rw [caller_cfg (hsid he)]
            exact target_last h.login _
          · intro _ _
            rw [hauth]
            exact h.flag hl
          · intro _
            exact (h.answers htl).trans hposts.2.1
        | false =>
          have hie : s.trans.kx.kx.isEncrypted = false := by rw [← h.enc]; exact he
          have hno : receivedEncrypted t.kx.kx.log = [] := by
            rw [hlog]; exact receivedEncrypted_first (by rw [← hin']; exact hie) hrec
          have hno₀ : receivedEncrypted s.trans.kx.kx.log = [] := by
            unfold receivedEncrypted
            rw [receivedEncrypted_none (by rw [← hin']; exact hie)]
            rfl
          simp only [cond_false, hdrop]
          cases hc : ext.contains Entry.encrypted with
          | false =>
            simp only [cond_false]
            exact h.below hx hg h2 htold (by rw [hcontains, hie, hc]; rfl) hsid hauth (fun _ => htl)
              (by rw [hno, hno₀]; exact List.prefix_rfl) (fun _ => by rw [hno, hno₀]) hposts.1 hposts.2.1 hup
          | true =>
            have hte : t.kx.kx.isEncrypted = true := by rw [hcontains, hc, Bool.or_true]
            simp only [cond_true, Caller.onEncrypted, hte, Option.bind_some]
            have hfresh : s.login = {} := by
              rcases h.early he with hf | hf
              · exact hf
              · rw [hf] at hst; cases hst
            have hgiven : s.given = [] := by
              refine Decidable.byContradiction fun hc => ?_
              have := h.later hc
              rw [hfresh] at this
              cases this
            have hstep : s.login.step (({ s with trans := t } : Caller σ).cfg x) .encrypted =
                { auth := some .serviceRequest, encrypted := true, log := [.sent 5 (str (ascii "ssh-userauth"))] } := by
              rw [hfresh]; exact target_encrypted
            have hrun := target_last ((h.early he).run (({ s with trans := t } : Caller σ).cfg x)) .encrypted
            rw [hstep] at hrun ⊢
            refine CInv.settle hx hg h2 htold hte.symm (fun hz => by cases hz) hrun ?_ (fun hz => by rw [hfresh] at hz; cases hz)
              (fun hz => by rw [hst] at hz; cases hz) (by rw [hno]; exact List.prefix_rfl) (fun _ _ => by rw [hno]; rfl) hposts.1 ?_
              h.later ⟨[.sent 5 (str (ascii "ssh-userauth"))], by rw [hfresh]; rfl, fun hz => absurd hgiven hz⟩ (by rw [hup]; exact h.upper)
              (fun _ => by rw [hup]; exact h.upperEq htl)
            · intro _ _
              rw [hauth]
              exact h.flag hl
            · intro _
              exact (h.answers htl).trans hposts.2.1

theorem CInv.send (hx : EnvOk x.trans) {s : Caller σ} (h : CInv x s) (hl : s.live = true) (hc : s.login.authenticated = true) (p : Bytes) :
    ∃ t, s.trans.step x.trans (.send p) = some t ∧ t.live = true ∧ CInv x ({ s with trans := t, given := s.given ++ [p] } : Caller σ) := by
  obtain ⟨htl, hst⟩ := Caller.live_iff.mp hl
  obtain ⟨t, h1, h2⟩ := h.fit.step hx (ev := .send p) trivial
  refine ⟨t, h1, ?_⟩
  simp only [Trans.step, htl, cond_true] at h1
  obtain ⟨a, b, c⟩ := sendPacket_posts h1
  have hlive : t.live = s.trans.live := by simp only [Trans.live, a, b]
  have henc : s.trans.kx.kx.isEncrypted = true := by
    rw [← h.enc]
    cases he : s.login.encrypted with
    | true => rfl
    | false => rw [(h.early he).info.1] at hc; cases hc
  have hup : upperSent t.posts = (loginMessages s.login.log ++ (s.given ++ [p])).filter isUpper := by
    rw [c, upperSent_append, h.upperEq htl, ← List.append_assoc, List.filter_append (l₂ := [p])]
    rfl
  refine ⟨by rw [hlive]; exact htl, h2, by rw [a]; exact h.told, by rw [a]; exact h.enc, h.early, ?_, fun _ => by rw [a]; exact h.flag hl, by rw [a]; exact h.recv,
    fun _ => by rw [a]; exact h.recvEq hl, ?_, ?_, fun _ => hc, by rw [hup]; exact List.prefix_rfl, fun _ => hup⟩
  · obtain ⟨tr, lo, gi⟩ := s
    rw [caller_cfg (t := tr) (y := lo) (g := gi) (by rw [a])]
    exact h.login
  · rw [c]
    exact clear_append h.clear fun hk => absurd hk ((h.fit.encrypted_iff hx (Trans.live_stop htl)).2 henc)
  · intro _
    rw [c, packetsSent_append]
    exact (h.answers htl).trans (List.sublist_append_left ..)

theorem CInv.lost (hg : x.login.Good) {s : Caller σ} (h : CInv x s) :
    CInv x ({ s with login := { s.login with over := true } } : Caller σ) := by
  have hdead : ({ s with login := { s.login with over := true } } : Caller σ).live ≠ true := by
    intro hc
    exact Bool.false_ne_true (Caller.live_iff.mp hc).2.symm
  refine ⟨h.fit, h.told, h.enc, ?_, ?_, fun hc => absurd hc hdead, h.recv, fun hc => absurd hc hdead, h.clear, h.answers, h.later, h.upper, h.upperEq⟩
  · intro he
    rcases h.early he with h | h <;> (right; simp only [h])
  · rw [show ({ s with login := { s.login with over := true } } : Caller σ).login = s.login.step (s.cfg x) .lost from
      (target_lost (h.target hg).sane).symm]
    exact target_last h.login _

theorem CInv.step (hx : EnvOk x.trans) (hg : x.login.Good) {s : Caller σ} (h : CInv x s) (ev : CallerEvent) :
    ∃ s', s.step x ev = some s' ∧ CInv x s' := by
  cases ev with
  | io ev =>
    simp only [Caller.step]
    cases hc : ev.isIo && (s.live || !ev.needsLive) with
    | false => exact ⟨s, rfl, h⟩
    | true =>
      rw [Bool.and_eq_true] at hc
      exact h.io hx hg hc.1
  | ready d =>
    simp only [Caller.step]
    cases hl : s.live with
    | false => exact ⟨s, rfl, h⟩
    | true => exact h.ready hx hg hl d
  | send p =>
    simp only [Caller.step]
    cases hc : s.live && s.login.authenticated with
    | false => exact ⟨s, rfl, h⟩
    | true =>
      rw [Bool.and_eq_true] at hc
      obtain ⟨t, h1, -, h2⟩ := h.send hx hc.1 hc.2 p
      simp only [cond_true, h1, Option.map_some]
      exact ⟨_, rfl, h2⟩
  | lost =>
    simp only [Caller.step, target_lost (h.target hg).sane]
    exact ⟨_, rfl, h.lost hg⟩

theorem CInv.run (hx : EnvOk x.trans) (hg : x.login.Good) {evs : List CallerEvent} : ∀ {s : Caller σ}, CInv x s →
    ∃ s', s.run x evs = some s' ∧ CInv x s' := by
  induction evs with
  | nil => intro s h; exact ⟨s, rfl, h⟩
  | cons ev evs ih =>
    intro s h
    obtain ⟨s₁, h1, h2⟩ := h.step hx hg ev
    obtain ⟨s₂, h3, h4⟩ := ih h2
    exact ⟨s₂, by simp only [Caller.run, h1, Option.bind_some, h3], h4⟩

end Lukko
