import Verif.Proof.ServerTrans
import Verif.Proof.ServerAuth
import Verif.Spec.Caller
import Verif.Prop.Kex
import Verif.Prop.Auth
/-
  Invariant of a server connection with both of its layers.
-/
namespace Lukko
open Spec Model

variable {σ : Type}

/-! ### Lists -/

theorem dropWhile_nil_all {α} {p : α → Bool} {l : List α} (h : l.dropWhile p = []) : ∀ z ∈ l, p z = true := by
  induction l with
  | nil => simp
  | cons a l ih =>
    cases hp : p a with
    | false => rw [List.dropWhile_cons_of_neg (by simp [hp])] at h; cases h
    | true =>
      rw [List.dropWhile_cons_of_pos hp] at h
      intro z hz
      rcases List.mem_cons.mp hz with rfl | hz
      · exact hp
      · exact ih h z hz

theorem takeWhile_self {α} {p : α → Bool} {l : List α} : l.takeWhile p = l ↔ ∀ z ∈ l, p z = true := by
  induction l with
  | nil => simp
  | cons a l ih =>
    cases hp : p a with
    | false => simp [List.takeWhile_cons, hp]
    | true => simp [List.takeWhile_cons, hp, ih]

theorem receivedEncrypted_quiet {l ext : List Entry} (h : received ext = []) :
    receivedEncrypted (l ++ ext) = receivedEncrypted l := by
  unfold receivedEncrypted
  have sub : ∀ {a : List Entry}, a.Sublist ext → received a = [] := by
    intro a ha
    have : (received a).Sublist (received ext) := ha.filterMap _
    rw [h] at this
    exact List.sublist_nil.mp this
  by_cases hw : l.dropWhile (!·.isInstallIn) = []
  · rw [hw, List.dropWhile_append, hw]
    simp only [List.isEmpty_nil, if_true, List.drop_nil]
    exact (sub ((List.drop_sublist _ _).trans (List.dropWhile_sublist _))).trans rfl
  · rw [List.dropWhile_append]
    cases hd : l.dropWhile (!·.isInstallIn) with
    | nil => exact absurd hd hw
    | cons a b =>
      simp only [List.isEmpty_cons, Bool.false_eq_true, if_false, List.cons_append, List.drop_one, List.tail_cons]
      rw [received_append, h, List.append_nil]

theorem receivedEncrypted_none {l : List Entry} (h : hasIn l = false) : l.dropWhile (!·.isInstallIn) = [] := by
  induction l with
  | nil => rfl
  | cons a l ih =>
    simp only [hasIn, List.any_cons, Bool.or_eq_false_iff] at h
    have : (!a.isInstallIn) = true := by cases a <;> first | rfl | simp at h
    rw [List.dropWhile_cons_of_pos (by simpa using this)]
    exact ih h.2

theorem receivedEncrypted_first {l ext : List Entry} {p : Bytes} (h : hasIn l = false) (hr : received ext = []) :
    receivedEncrypted (l ++ .recv p :: ext) = [] := by
  unfold receivedEncrypted
  rw [List.dropWhile_append, receivedEncrypted_none h]
  simp only [List.isEmpty_nil, if_true]
  rw [List.dropWhile_cons_of_pos rfl]
  have : (received ((ext.dropWhile (!·.isInstallIn)).drop 1)).Sublist (received ext) :=
    ((List.drop_sublist _ _).trans (List.dropWhile_sublist _)).filterMap _
  rw [hr] at this
  exact List.sublist_nil.mp this

theorem receivedEncrypted_some {l ext : List Entry} {p : Bytes} (h : hasIn l = true) (hr : received ext = []) :
    receivedEncrypted (l ++ .recv p :: ext) = receivedEncrypted l ++ [p] := by
  unfold receivedEncrypted
  rw [List.dropWhile_append]
  cases hd : l.dropWhile (!·.isInstallIn) with
  | nil =>
    obtain ⟨z, hz, hz'⟩ := List.any_eq_true.mp h
    have := dropWhile_nil_all hd z hz
    cases z <;> simp [Entry.isInstallIn] at this hz'
  | cons a b =>
    simp only [List.isEmpty_cons, Bool.false_eq_true, if_false, List.cons_append, List.drop_one, List.tail_cons]
    rw [received_append]
    have : received (.recv p :: ext) = p :: received ext := rfl
    rw [this, hr]

theorem receivedEncrypted_prefix {l ext : List Entry} : receivedEncrypted l <+: receivedEncrypted (l ++ ext) := by
  unfold receivedEncrypted
  rw [List.dropWhile_append]
  cases hd : l.dropWhile (!·.isInstallIn) with
  | nil => exact List.nil_prefix
  | cons a b =>
    simp only [List.isEmpty_cons, Bool.false_eq_true, if_false, List.cons_append, List.drop_one, List.tail_cons]
    rw [received_append]
    exact List.prefix_append _ _

theorem packetsSent_append (a b : List Outgoing) : packetsSent (a ++ b) = packetsSent a ++ packetsSent b := by
  simp [packetsSent]

theorem packetsSent_map (l : List Bytes) : packetsSent (l.map .packet) = l := by
  induction l with
  | nil => rfl
  | cons a l ih =>
    have : packetsSent ((a :: l).map .packet) = a :: packetsSent (l.map .packet) := rfl
    rw [this, ih]

theorem mem_packetsSent {p : Bytes} {l : List Outgoing} : p ∈ packetsSent l ↔ .packet p ∈ l := by
  simp only [packetsSent, List.mem_filterMap]
  constructor
  · rintro ⟨z, hz, h⟩
    cases z <;> simp at h
    rw [← h]; exact hz
  · intro h
    exact ⟨_, h, rfl⟩

/-- While there are no keys, everything is sent in clear; afterwards nothing. -/
theorem upperSent_append (a b : List Outgoing) : upperSent (a ++ b) = upperSent a ++ upperSent b := by
  simp [upperSent, packetsSent_append]

theorem clear_append {a b : List Outgoing} {P : Bytes → Prop} (h : ∀ p ∈ postsOfEpoch a, P p)
    (hb : a.filterMap Outgoing.keys? = [] → ∀ p, .packet p ∈ b → P p) : ∀ p ∈ postsOfEpoch (a ++ b), P p := by
  intro p hp
  by_cases hk : a.filterMap Outgoing.keys? = []
  · unfold postsOfEpoch at hp h
    have ha : a.takeWhile (!·.isKeys) = a := by
      rw [takeWhile_self]
      intro z hz
      have := List.filterMap_eq_nil_iff.mp hk z hz
      cases z <;> first | rfl | simp [Outgoing.keys?] at this
    rw [ha] at h
    obtain ⟨z, hz, hz'⟩ := List.mem_filterMap.mp hp
    have hz := List.takeWhile_sublist _ |>.subset hz
    rcases List.mem_append.mp hz with hz | hz
    · exact h p (List.mem_filterMap.mpr ⟨z, hz, hz'⟩)
    · cases z <;> simp at hz'
      rw [hz'] at hz
      exact hb hk p hz
  · apply h
    unfold postsOfEpoch at hp ⊢
    rw [List.takeWhile_append] at hp
    split at hp
    · rename_i hlen
      exfalso
      apply hk
      have ha : a.takeWhile (!·.isKeys) = a := (List.takeWhile_sublist _).eq_of_length hlen
      rw [takeWhile_self] at ha
      rw [List.filterMap_eq_nil_iff]
      intro z hz
      have := ha z hz
      cases z <;> first | rfl | simp [Outgoing.isKeys] at this
    · exact hp

/-! ### The key exchange -/

theorem sendKexInit_keeps {e} {s : Kx} : (s.sendKexInit e).1.inputEncrypted = s.inputEncrypted ∧
    (s.sendKexInit e).1.outputEncrypted = s.outputEncrypted ∧ (s.sendKexInit e).1.ks = s.ks := by
  unfold Kx.sendKexInit
  simp only [Bool.cond_eq_ite]
  repeat' split
  all_goals exact ⟨rfl, rfl, rfl⟩

/-- Events other than packets leave ciphers and session id alone. -/
theorem other_keeps {e} {y : KxSys} {ev} (hn : ∀ raw claim, ev ≠ .packet raw claim) :
    (y.step e ev).kx.isEncrypted = y.kx.isEncrypted ∧ (y.step e ev).kx.ks = y.kx.ks := by
  obtain ⟨s, stop⟩ := y
  have fin : ∀ {r : KRes}, (KxSys.finish r).kx.isEncrypted = r.1.isEncrypted ∧ (KxSys.finish r).kx.ks = r.1.ks := by
    intro r
    unfold KxSys.finish
    split <;> exact ⟨rfl, rfl⟩
  have init : ∀ {z : Kx}, (KxSys.finish (z.sendKexInit e)).kx.isEncrypted = z.isEncrypted ∧
      (KxSys.finish (z.sendKexInit e)).kx.ks = z.ks := by
    intro z
    obtain ⟨a, b, c⟩ := sendKexInit_keeps (e := e) (s := z)
    rw [fin.1, fin.2]
    exact ⟨by rw [Kx.isEncrypted, a, b, Kx.isEncrypted], c⟩
  cases stop with
  | some x => exact ⟨rfl, rfl⟩
  | none =>
    cases ev with
    | packet raw claim => exact absurd rfl (hn _ _)
    | version v =>
      simp only [KxSys.step, Kx.onVersion, Bool.cond_eq_ite]
      split
      · exact ⟨rfl, rfl⟩
      · split
        · exact init
        · exact ⟨rfl, rfl⟩
    | authenticated =>
      simp only [KxSys.step, Kx.setAuthenticated, Bool.cond_eq_ite]
      split
      · split <;> exact ⟨rfl, rfl⟩
      · exact ⟨rfl, rfl⟩
    | rekeyTimer =>
      simp only [KxSys.step, Kx.initiateRekey, Bool.cond_eq_ite]
      split
      · split
        · exact ⟨rfl, rfl⟩
        · split
          · exact ⟨rfl, rfl⟩
          · exact init
      · exact ⟨rfl, rfl⟩
    | writable more =>
      simp only [KxSys.step, Kx.onBufferedWrite, Bool.cond_eq_ite]
      repeat' split
      all_goals exact ⟨rfl, rfl⟩

/-- While the connection exists, it is encrypted once keys are used for receiving. -/
theorem Fit.encrypted_iff {x : TransEnv σ} {role} (hx : EnvOk x) {t : Trans σ} (h : Fit x role t) (hs : t.kx.stop = none) :
    t.kx.kx.isEncrypted = hasIn t.kx.kx.log ∧ (t.kx.kx.isEncrypted = true → t.posts.filterMap Outgoing.keys? ≠ []) := by
  have hi := h.inv hx
  unfold SysInv at hi
  rw [hs] at hi
  obtain ⟨φ, hi⟩ := hi
  have h1 : t.kx.kx.isEncrypted = hasIn t.kx.kx.log := by
    rw [Kx.isEncrypted, ← hi.inEnc]
    cases hin : t.kx.kx.inputEncrypted with
    | false => rfl
    | true => rw [hi.inOut hin]; rfl
  refine ⟨h1, fun he hk => ?_⟩
  rw [h.keys, List.map_eq_nil_iff, ← hasOut_iff, ← hi.outEnc] at hk
  rw [Kx.isEncrypted, hk, Bool.and_false] at he
  cases he

/-- The session id of an encrypted connection. -/
theorem Fit.session {x : TransEnv σ} {role} (hx : EnvOk x) {t : Trans σ} (h : Fit x role t) (hs : t.kx.stop = none)
    (he : t.kx.kx.isEncrypted = true) {ev : KxEvent} (hev : EventOk ev) :
    (t.kx.step x.kex ev).kx.ks.sessionId = t.kx.kx.ks.sessionId := by
  obtain ⟨evs, h1, h2⟩ := h.kx
  rw [(h.encrypted_iff hx hs).1] at he
  obtain ⟨z, hz, hz'⟩ := List.any_eq_true.mp he
  obtain ⟨a, b, hl⟩ := List.append_of_mem hz
  rw [h2] at hl
  obtain ⟨t₀, -, hsid⟩ := C14_before_ciphers hx.digest h1 hl (by cases z <;> first | exact ⟨_, _, _, .inr rfl⟩ | cases hz')
  have hok : ∀ ev' ∈ evs ++ [ev], EventOk ev' := by
    intro z hz
    rcases List.mem_append.mp hz with hz | hz
    · exact h1 z hz
    · rw [List.mem_singleton.mp hz]; exact hev
  have := C14_fixed (role := role) hx.digest hok (by
    rw [hsid]
    intro hc
    have := hx.digest (hashInput t₀)
    rw [hc] at this
    cases this)
  rw [run_snoc, ← h2] at this
  exact this

/-! ### The handlers -/

theorem claim_ok {cfg : AuthCfg} {y : Auth} {d : Bool} (raw : Bytes) : ClaimOk raw (y.claim cfg d raw) := by
  cases raw with
  | nil => exact .inl rfl
  | cons m p =>
    by_cases hm : some m ∈ [some (20 : UInt8), some 21, some 30, some 31]
    · left
      have hm' : m = 20 ∨ m = 21 ∨ m = 30 ∨ m = 31 := by simpa using hm
      have h1 : y.laterHandlers m p = none := by
        rcases hm' with rfl | rfl | rfl | rfl <;>
          simp [Auth.laterHandlers, shouldProxy, isChannelMessage, MSG_GLOBAL_REQUEST, MSG_REQUEST_SUCCESS, MSG_REQUEST_FAILURE,
            MSG_CHANNEL_OPEN, MSG_CHANNEL_OPEN_CONFIRMATION, MSG_CHANNEL_OPEN_FAILURE, MSG_CHANNEL_WINDOW_ADJUST,
            MSG_CHANNEL_DATA, MSG_CHANNEL_EXTENDED_DATA, MSG_CHANNEL_EOF, MSG_CHANNEL_CLOSE, MSG_CHANNEL_REQUEST,
            MSG_CHANNEL_SUCCESS, MSG_CHANNEL_FAILURE]
      have h2 : allowedWhileOccupied m = true := by
        rcases hm' with rfl | rfl | rfl | rfl <;> decide
      have h3 : m ≠ MSG_SERVICE_REQUEST ∧ m ≠ MSG_USERAUTH_REQUEST := by
        rcases hm' with rfl | rfl | rfl | rfl <;> decide
      simp only [Auth.claim, h1, h2, Bool.not_true, Bool.and_false, cond_false, if_neg h3.1, if_neg h3.2]
      cases y.userAuth <;> rfl
    · exact .inr hm

/-! ### Before the first key exchange -/

/-- What the upper layer can be before it has been told that the connection is encrypted. -/
def Early (y : Auth) : Prop := y = {} ∨ y = ({} : Auth).disconnect 10 ∨ y = ({} : Auth).close

theorem Early.run {y : Auth} (h : Early y) (cfg : AuthCfg) : ∃ evs, y = Auth.run cfg {} evs := by
  rcases h with rfl | rfl | rfl
  · exact ⟨[], rfl⟩
  · exact ⟨[.authTimeout], rfl⟩
  · exact ⟨[.closed], rfl⟩

theorem Early.fresh {y : Auth} (h : Early y) (hs : y.stop = false) : y = {} := by
  rcases h with rfl | rfl | rfl
  · rfl
  · cases hs
  · cases hs

theorem Early.other {y : Auth} (h : Early y) {cfg ev} (he : ev.isOther = true) : Early (y.step cfg ev) := by
  rcases h with rfl | rfl | rfl
  · cases ev <;> first | exact .inl rfl | exact .inr (.inl rfl) | exact .inr (.inr rfl) | cases he
  · exact .inr (.inl rfl)
  · exact .inr (.inr rfl)

theorem Early.auth {y : Auth} (h : Early y) : y.authenticated = false ∧ y.channels = false ∧ y.encrypted = false := by
  rcases h with rfl | rfl | rfl <;> exact ⟨rfl, rfl, rfl⟩

theorem Early.answers {y : Auth} (h : Early y) : ∀ p ∈ y.log.filterMap authAnswer, IsTransportMessage p := by
  intro p hp
  rcases h with rfl | rfl | rfl
  · cases hp
  · have : p = [1] := by simpa [Auth.disconnect, authAnswer] using hp
    exact ⟨1, [], this, by decide⟩
  · simp [Auth.close, authAnswer] at hp

/-! ### Both layers -/

structure SInv (x : ServerEnv σ) (s : Server σ) : Prop where
  fit : Fit x.trans .server s.trans
  told : EncTold s.trans.kx.kx
  enc : s.auth.encrypted = s.trans.kx.kx.isEncrypted
  early : s.auth.encrypted = false → Early s.auth
  auth : ∃ evs, s.auth = Auth.run (s.cfg x) {} evs
  flag : s.live = true → s.auth.authenticated = s.trans.kx.kx.authenticated
  recv : clientMessages s.auth.log <+: receivedEncrypted s.trans.kx.kx.log
  recvEq : s.live = true → clientMessages s.auth.log = receivedEncrypted s.trans.kx.kx.log
  clear : ∀ p ∈ postsOfEpoch s.trans.posts, IsTransportMessage p
  answers : s.trans.live = true → (s.auth.log.filterMap authAnswer).Sublist (packetsSent s.trans.posts)
  upper : s.auth.channels = false → ∀ p ∈ packetsSent s.trans.posts, IsTransportMessage p ∨ p ∈ s.auth.log.filterMap authAnswer
  exact : s.auth.channels = false → upperSent s.trans.posts <+: (s.auth.log.filterMap authAnswer).filter isUpper ∧
    (s.trans.live = true → upperSent s.trans.posts = (s.auth.log.filterMap authAnswer).filter isUpper)

theorem SInv.init (x : ServerEnv σ) : SInv x ({} : Server σ) where
  fit := Fit.init .server
  told := rfl
  enc := rfl
  early := fun _ => .inl rfl
  auth := ⟨[], rfl⟩
  flag := fun _ => rfl
  recv := List.nil_prefix
  recvEq := fun _ => rfl
  clear := by intro p hp; cases hp
  answers := fun _ => List.nil_sublist _
  upper := by intro _ p hp; cases hp
  exact := fun _ => ⟨List.nil_prefix, fun _ => rfl⟩

theorem Server.live_iff {s : Server σ} : s.live = true ↔ s.trans.live = true ∧ s.auth.stop = false := by
  simp [Server.live]

theorem Trans.live_stop {t : Trans σ} (h : t.live = true) : t.kx.stop = none := by
  simp only [Trans.live, Bool.and_eq_true, Option.isNone_iff_eq_none] at h
  exact h.2

/-- `SetAuthenticated` and the answers. -/
theorem settle_ok {x : ServerEnv σ} (hx : EnvOk x.trans) {t : Trans σ} {y₀ y : Auth} (hf : Fit x.trans .server t)
    (ha : y.authenticated = true → y₀.authenticated = false → t.live = true →
      t.kx.kx.isEncrypted = true ∧ t.kx.kx.authenticated = false) :
    ∃ t', ({ trans := t, auth := y₀ } : Server σ).settle x y =
        some { trans := t', auth := bif t.live then y else y.step (({ trans := t, auth := y₀ } : Server σ).cfg x) .closed } ∧
      Fit x.trans .server t' ∧ t'.live = t.live ∧
      t'.kx.kx = { t.kx.kx with authenticated := t.kx.kx.authenticated || (t.live && y.authenticated && !y₀.authenticated) } ∧
      t'.posts = t.posts ++ bif t.live then ((y.log.drop y₀.log.length).filterMap authAnswer).map .packet else [] := by
  have h1 : ∃ t₁, (bif y.authenticated && !y₀.authenticated then t.setAuthenticated x.trans else some t) = some t₁ ∧
      Fit x.trans .server t₁ ∧ t₁.live = t.live ∧ t₁.posts = t.posts ∧
      t₁.kx.kx = { t.kx.kx with authenticated := t.kx.kx.authenticated || (t.live && y.authenticated && !y₀.authenticated) } := by
    cases hc : y.authenticated && !y₀.authenticated with
    | false => exact ⟨t, rfl, hf, rfl, rfl, by rw [Bool.and_assoc, hc]; simp⟩
    | true =>
      simp only [cond_true, Trans.setAuthenticated]
      cases hl : t.live with
      | false => exact ⟨t, rfl, hf, hl, rfl, by simp⟩
      | true =>
        rw [Bool.and_eq_true, Bool.not_eq_true'] at hc
        obtain ⟨a1, a2⟩ := ha hc.1 hc.2 hl
        obtain ⟨t₁, e1, e2⟩ := hf.step hx (ev := .authenticated) trivial
        simp only [cond_true, a1, a2, Bool.not_false, Bool.and_self]
        refine ⟨t₁, e1, e2, ?_⟩
        simp only [Trans.step, hl, cond_true] at e1
        obtain ⟨b1, b2, ps, b3, -, b4⟩ := absorb_posts e1
        rw [step_authenticated (Trans.live_stop hl) a1 a2] at b1 b4
        simp only [List.drop_length, true_implies] at b4
        refine ⟨?_, by rw [b3, b4, List.append_nil], ?_⟩
        · rw [← hl]; simp only [Trans.live, b1, b2]
        · rw [b1]; simp [hc.1, hc.2]
  obtain ⟨t₁, e1, e2, e3, e4, e5⟩ := h1
  obtain ⟨t₂, f1, f2, f3, f4, f5⟩ := sendAll_posts (ps := (y.log.drop y₀.log.length).filterMap authAnswer) hx e2
  have hl2 : t₂.live = t.live := by rw [← e3]; simp only [Trans.live, f3, f4]
  refine ⟨t₂, ?_, f2, hl2, by rw [f3, e5], by rw [f5, e4, e3]⟩
  simp only [Server.settle, e1, Option.bind_some, f1, Option.map_some, hl2]

/-- After an event of one of the layers, the other one follows. -/
theorem SInv.settle {x : ServerEnv σ} (hx : EnvOk x.trans) {t : Trans σ} {y₀ y : Auth}
    (fit : Fit x.trans .server t) (told : EncTold t.kx.kx) (enc : y.encrypted = t.kx.kx.isEncrypted)
    (early : y.encrypted = false → Early y)
    (auth : ∃ evs, y = Auth.run (({ trans := t, auth := y₀ } : Server σ).cfg x) {} evs)
    (flag : t.live = true → y₀.stop = false → y₀.authenticated = t.kx.kx.authenticated)
    (mono : y₀.authenticated = true → y.authenticated = true) (same : y₀.stop = true → y = y₀)
    (recv : clientMessages y.log <+: receivedEncrypted t.kx.kx.log)
    (recvEq : t.live = true → y.stop = false → clientMessages y.log = receivedEncrypted t.kx.kx.log)
    (clear : ∀ p ∈ postsOfEpoch t.posts, IsTransportMessage p)
    (answers : t.live = true → (y₀.log.filterMap authAnswer).Sublist (packetsSent t.posts))
    (ext : ∃ es, y.log = y₀.log ++ es)
    (upper : y.channels = false → ∀ p ∈ packetsSent t.posts, IsTransportMessage p ∨ p ∈ y₀.log.filterMap authAnswer)
    (exact : y.channels = false → upperSent t.posts <+: (y₀.log.filterMap authAnswer).filter isUpper ∧
      (t.live = true → upperSent t.posts = (y₀.log.filterMap authAnswer).filter isUpper)) :
    ∃ s', ({ trans := t, auth := y₀ } : Server σ).settle x y = some s' ∧ SInv x s' := by
  have hnew : y.authenticated = true → y₀.authenticated = false → t.live = true →
      t.kx.kx.isEncrypted = true ∧ t.kx.kx.authenticated = false := by
    intro h1 h2 h3
    constructor
    · rw [← enc]
      cases he : y.encrypted with
      | true => rfl
      | false => rw [(early he).auth.1] at h1; cases h1
    · cases hs : y₀.stop with
      | false => rw [← flag h3 hs]; exact h2
      | true => rw [same hs, h2] at h1; cases h1
  obtain ⟨t', e1, e2, e3, e4, e5⟩ := settle_ok hx fit hnew
  obtain ⟨es, hes⟩ := ext
  rw [hes, List.drop_left] at e5
  refine ⟨_, e1, ?_⟩
  have hlog : t'.kx.kx.log = t.kx.kx.log := by rw [e4]
  have hks : t'.kx.kx.ks = t.kx.kx.ks := by rw [e4]
  have hie : t'.kx.kx.isEncrypted = t.kx.kx.isEncrypted := by rw [e4, Kx.isEncrypted]
  have hcfg : ∀ z : Auth, ({ trans := t', auth := z } : Server σ).cfg x = ({ trans := t, auth := y₀ } : Server σ).cfg x := by
    intro z; simp only [Server.cfg, hks]
  have htold : EncTold t'.kx.kx := by unfold EncTold; rw [hie, hlog]; exact told
  have hclear : ∀ p ∈ postsOfEpoch t'.posts, IsTransportMessage p := by
    rw [e5]
    refine clear_append clear fun hk p hp => ?_
    cases hl : t.live with
    | false => rw [hl] at hp; cases hp
    | true =>
      rw [hl, cond_true] at hp
      have hne : y.encrypted = false := by
        rw [enc]
        cases he : t.kx.kx.isEncrypted with
        | false => rfl
        | true => exact absurd hk ((fit.encrypted_iff hx (Trans.live_stop hl)).2 he)
      refine (early hne).answers p ?_
      rw [hes, List.filterMap_append]
      refine List.mem_append_right _ ?_
      obtain ⟨q, hq, hq'⟩ := List.mem_map.mp hp
      cases hq'
      exact hq
  cases hl : t.live with
  | true =>
    rw [hl] at e3 e5
    simp only [cond_true] at e5 ⊢
    have hp : packetsSent t'.posts = packetsSent t.posts ++ es.filterMap authAnswer := by
      rw [e5, packetsSent_append, packetsSent_map]
    refine ⟨e2, htold, by rw [hie]; exact enc, early, by rw [hcfg]; exact auth, ?_, by rw [hlog]; exact recv, ?_, hclear, ?_, ?_, ?_⟩
    · intro hs
      have hy := (Server.live_iff.mp hs).2
      simp only at hy
      simp only [e4, hl, Bool.true_and]
      cases h0 : y₀.stop with
      | true => rw [same h0] at hy; rw [h0] at hy; cases hy
      | false =>
        rw [← flag hl h0]
        cases h1 : y₀.authenticated with
        | true => rw [mono h1]; rfl
        | false => simp
    · intro hs
      simp only [hlog]
      exact recvEq hl (Server.live_iff.mp hs).2
    · intro _
      simp only [hes, List.filterMap_append, hp]
      exact (answers hl).append (List.Sublist.refl _)
    · intro hc p hm
      simp only at hc hm ⊢
      rw [hp] at hm
      rw [hes, List.filterMap_append]
      rcases List.mem_append.mp hm with hm | hm
      · rcases upper hc p hm with h | h
        · exact .inl h
        · exact .inr (List.mem_append_left _ h)
      · exact .inr (List.mem_append_right _ hm)
    · intro hc
      have he : upperSent t'.posts = (y.log.filterMap authAnswer).filter isUpper := by
        unfold upperSent
        rw [hp, hes, List.filterMap_append, List.filter_append, List.filter_append, ← (exact hc).2 hl]
        rfl
      simp only [he]
      exact ⟨List.prefix_rfl, fun _ => trivial⟩
  | false =>
    rw [hl] at e3 e5
    simp only [cond_false, List.append_nil] at e5 ⊢
    have hg := grew_other (cfg := ({ trans := t, auth := y₀ } : Server σ).cfg x) (y := y) (ev := .closed) rfl
    obtain ⟨cs, hcs, hcm⟩ := hg.log
    have hmsg : clientMessages (y.step (({ trans := t, auth := y₀ } : Server σ).cfg x) .closed).log = clientMessages y.log := by
      rw [hcs, clientMessages_append, hcm, List.append_nil]
    have dead : ∀ z : Auth, ({ trans := t', auth := z } : Server σ).live ≠ true := by
      intro z hz
      have := (Server.live_iff.mp hz).1
      simp only [e3] at this
      cases this
    refine ⟨e2, htold, by rw [hie, ← enc]; exact hg.enc, ?_, ?_, fun hs => absurd hs (dead _), ?_, fun hs => absurd hs (dead _), hclear, ?_, ?_, ?_⟩
    · intro he
      rw [hg.enc] at he
      exact (early he).other (cfg := ({ trans := t, auth := y₀ } : Server σ).cfg x) (ev := .closed) rfl
    · obtain ⟨evs, hev⟩ := auth
      refine ⟨evs ++ [.closed], ?_⟩
      rw [hcfg]
      simp only [Auth.run, List.foldl_append, List.foldl_cons, List.foldl_nil] at hev ⊢
      rw [← hev]
    · rw [hlog]
      simp only [hmsg]
      exact recv
    · intro hc
      simp only [e3] at hc
      cases hc
    · intro hc p hm
      have hc' : y.channels = false := by
        cases h : y.channels with
        | false => rfl
        | true => rw [hg.chan h] at hc; cases hc
      simp only [e5] at hm
      rcases upper hc' p hm with h | h
      · exact .inl h
      · refine .inr ?_
        simp only [hcs, hes, List.filterMap_append, List.append_assoc]
        exact List.mem_append_left _ h
    · intro hc
      have hc' : y.channels = false := by
        cases h : y.channels with
        | false => rfl
        | true => rw [hg.chan h] at hc; cases hc
      refine ⟨?_, fun hz => absurd (e3.symm.trans hz) Bool.false_ne_true⟩
      simp only [e5, hcs, hes, List.filterMap_append, List.append_assoc, List.filter_append]
      exact (exact hc').1.trans (List.prefix_append _ _)

end Lukko
