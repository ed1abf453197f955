import Verif.Proof.AuthInv
import Verif.Model.Identity
/-
  What is known about the account after login (for C79).
-/
namespace Lukko
open Model Spec

/-- The permissions are covered by what the translation server said about this user. -/
def TrCovers (cfg : AuthCfg) (y : Auth) (u : Bytes) : Prop :=
  (cfg.translation = true → ∃ t, y.translation = some t ∧ t.user = u ∧ t.account.ok = true ∧
    (y.allowExec = true → t.account.shell = true) ∧
    (y.allowSftp = true → t.account.shell = true ∨ t.account.sftp = true) ∧
    (t.account.shell = true → t.account.shellValid = true)) ∧
  (cfg.translation = false → y.translation = none)

structure IdInv (cfg : AuthCfg) (y : Auth) : Prop where
  auth : y.authenticated = true → TrCovers cfg y y.username
  home : ∀ r k, y.task = some (.home r k) → y.authenticated = false ∧ TrCovers cfg y r.user

/-- Nothing relevant changes, except that a user logs in. -/
structure SameId (u : Bytes) (y y' : Auth) : Prop where
  tr : y'.translation = y.translation
  exec : y'.allowExec = y.allowExec
  sftp : y'.allowSftp = y.allowSftp
  user : y'.username = u ∨ (y'.username = y.username ∧ y'.authenticated = y.authenticated)

theorem SameId.refl (u : Bytes) (y : Auth) : SameId u y y := ⟨rfl, rfl, rfl, .inr ⟨rfl, rfl⟩⟩
theorem SameId.trans {u : Bytes} {a b c : Auth} (h : SameId u a b) (h' : SameId u b c) : SameId u a c := by
  refine ⟨h'.tr.trans h.tr, h'.exec.trans h.exec, h'.sftp.trans h.sftp, ?_⟩
  rcases h'.user with h1 | ⟨h1, h2⟩
  · exact .inl h1
  · rcases h.user with h3 | ⟨h3, h4⟩
    · exact .inl (h1.trans h3)
    · exact .inr ⟨h1.trans h3, h2.trans h4⟩

theorem TrCovers.same {cfg : AuthCfg} {u v : Bytes} {y y' : Auth} (h : TrCovers cfg y v) (hs : SameId u y y') :
    TrCovers cfg y' v := by
  unfold TrCovers
  rw [hs.tr, hs.exec, hs.sftp]
  exact h

/-- Before login: the request of this user is answered. -/
theorem TrCovers.inv {cfg : AuthCfg} {u : Bytes} {y y' : Auth} (h : TrCovers cfg y u) (hs : SameId u y y')
    (ha : y.authenticated = false) (ht : ∀ r k, y'.task = some (.home r k) → y'.authenticated = false ∧ r.user = u) :
    IdInv cfg y' := by
  refine ⟨fun h1 => ?_, fun r k h1 => ?_⟩
  · rcases hs.user with h2 | ⟨_, h2⟩
    · rw [h2]; exact h.same hs
    · rw [h2, ha] at h1; simp at h1
  · rw [(ht r k h1).2]
    exact ⟨(ht r k h1).1, h.same hs⟩

/-- After login. -/
theorem TrCovers.post {cfg : AuthCfg} {y y' : Auth} (h : TrCovers cfg y y.username) (hs : SameId y.username y y')
    (ht : ∀ r k, y'.task ≠ some (.home r k)) : IdInv cfg y' := by
  refine ⟨fun _ => ?_, fun r k h1 => absurd h1 (ht r k)⟩
  have : y'.username = y.username := hs.user.elim id (·.1)
  rw [this]
  exact h.same hs

section
variable (cfg : AuthCfg) (y : Auth)

theorem sameId_malformed (async : Bool) {u : Bytes} : SameId u y (y.malformed async) := by
  cases async <;> exact ⟨rfl, rfl, rfl, .inr ⟨rfl, rfl⟩⟩

theorem sameId_fail (m : Bytes) (async : Bool) {u : Bytes} : SameId u y (y.fail cfg m async) := ⟨rfl, rfl, rfl, .inr ⟨rfl, rfl⟩⟩

theorem sameId_accept (r : AuthReq) (async : Bool) : SameId r.user y (y.accept cfg r async) := by
  unfold Auth.accept
  simp only
  split <;> exact ⟨rfl, rfl, rfl, .inl rfl⟩

theorem sameId_keyAccepted (r : AuthReq) (k : KeyReq) (async : Bool) : SameId r.user y (y.keyAccepted cfg r k async) := by
  unfold Auth.keyAccepted
  cases cfg.parseKey k.blob
  · exact sameId_fail ..
  · cases k.withSig
    · cases k.rest.isEmpty
      · exact sameId_malformed ..
      · exact ⟨rfl, rfl, rfl, .inr ⟨rfl, rfl⟩⟩
    · simp only [Bool.not_true, cond_false]
      split
      · exact sameId_malformed ..
      · unfold Auth.checkKeySignature
        split
        · exact sameId_fail ..
        · split
          · exact sameId_fail ..
          · exact ⟨rfl, rfl, rfl, .inr ⟨rfl, rfl⟩⟩
          · exact sameId_accept ..

theorem sameId_publickey (r : AuthReq) (async : Bool) : SameId r.user y (y.publickey cfg r async) := by
  unfold Auth.publickey
  split
  · exact sameId_malformed ..
  · split
    · rename_i o _
      exact SameId.trans (b := { y with opts := o }) ⟨rfl, rfl, rfl, .inr ⟨rfl, rfl⟩⟩ (sameId_keyAccepted ..)
    · cases y.useHome <;> exact ⟨rfl, rfl, rfl, .inr ⟨rfl, rfl⟩⟩

theorem sameId_hostAccepted (r : AuthReq) (h : HostReq) (async : Bool) : SameId r.user y (y.hostAccepted cfg r h async) := by
  unfold Auth.hostAccepted
  cases cfg.parseKey h.blob
  · exact sameId_fail ..
  · simp only [Bool.not_true, cond_false]
    split
    · exact sameId_fail ..
    · split
      · exact SameId.trans (b := { y with hostbased := true }) ⟨rfl, rfl, rfl, .inr ⟨rfl, rfl⟩⟩ (sameId_accept ..)
      · exact sameId_fail ..

theorem sameId_hostBased (r : AuthReq) (async : Bool) : SameId r.user y (y.hostBased cfg r async) := by
  unfold Auth.hostBased
  split
  · exact sameId_malformed ..
  · split
    · exact ⟨rfl, rfl, rfl, .inr ⟨rfl, rfl⟩⟩
    · rename_i o _
      exact SameId.trans (b := { y with opts := o }) ⟨rfl, rfl, rfl, .inr ⟨rfl, rfl⟩⟩ (sameId_hostAccepted ..)

theorem sameId_byMethod (r : AuthReq) (pa async : Bool) : SameId r.user y (y.byMethod cfg r pa async) := by
  unfold Auth.byMethod
  split
  · exact sameId_publickey ..
  · split
    · exact sameId_hostBased ..
    · cases pa
      · exact ⟨rfl, rfl, rfl, .inr ⟨rfl, rfl⟩⟩
      · exact sameId_accept ..
end

/-- The only file being read is that of this request. -/
structure HomeOf (r : AuthReq) (y : Auth) : Prop where
  home : ∀ r' k, y.task = some (.home r' k) → y.authenticated = false ∧ r'.user = r.user

theorem HomeOf.of {r : AuthReq} {y : Auth} (h : ∀ r' k, y.task ≠ some (.home r' k)) : HomeOf r y :=
  ⟨fun r' k h1 => absurd h1 (h r' k)⟩

section
variable {cfg : AuthCfg} {y : Auth}

theorem noHome_malformed (ht : y.task = none) (async : Bool) (r : AuthReq) : HomeOf r (y.malformed async) := by
  cases async <;> exact HomeOf.of fun _ _ => by simp [Auth.malformed, Auth.disconnect, Auth.close, ht]

theorem noHome_fail (m : Bytes) (async : Bool) (r : AuthReq) : HomeOf r (y.fail cfg m async) :=
  HomeOf.of fun _ _ => by simp [Auth.fail, Auth.complete]

theorem noHome_accept (ht : y.task = none) (r : AuthReq) (async : Bool) : HomeOf r (y.accept cfg r async) := by
  unfold Auth.accept
  simp only
  split <;> exact HomeOf.of fun _ _ => by simp [Auth.close, Auth.complete, ht]

theorem noHome_keyAccepted (ht : y.task = none) (r : AuthReq) (k : KeyReq) (async : Bool) :
    HomeOf r (y.keyAccepted cfg r k async) := by
  unfold Auth.keyAccepted
  cases cfg.parseKey k.blob
  · exact noHome_fail ..
  · cases k.withSig
    · cases k.rest.isEmpty
      · exact noHome_malformed ht ..
      · exact HomeOf.of fun _ _ => by simp [Auth.complete]
    · simp only [Bool.not_true, cond_false]
      split
      · exact noHome_malformed ht ..
      · unfold Auth.checkKeySignature
        split
        · exact noHome_fail ..
        · split
          · exact noHome_fail ..
          · exact HomeOf.of fun _ _ => by simp [Auth.failLater]
          · exact noHome_accept ht ..

theorem noHome_hostAccepted (ht : y.task = none) (r : AuthReq) (h : HostReq) (async : Bool) :
    HomeOf r (y.hostAccepted cfg r h async) := by
  unfold Auth.hostAccepted
  cases cfg.parseKey h.blob
  · exact noHome_fail ..
  · simp only [Bool.not_true, cond_false]
    split
    · exact noHome_fail ..
    · split
      · exact noHome_accept (y := { y with hostbased := true }) ht ..
      · exact noHome_fail ..

theorem home_byMethod (ht : y.task = none) (ha : y.authenticated = false) (r : AuthReq) (pa async : Bool) :
    HomeOf r (y.byMethod cfg r pa async) := by
  unfold Auth.byMethod
  split
  · unfold Auth.publickey
    split
    · exact noHome_malformed ht ..
    · split
      · rename_i o _
        exact noHome_keyAccepted (y := { y with opts := o }) ht ..
      · cases y.useHome
        · exact HomeOf.of fun _ _ => by simp [Auth.failLater]
        · refine ⟨fun r' k h1 => ?_⟩
          simp only [cond_true, Option.some.injEq, AuthTask.home.injEq] at h1
          exact ⟨ha, by rw [h1.1]⟩
  · split
    · unfold Auth.hostBased
      split
      · exact noHome_malformed ht ..
      · split
        · exact HomeOf.of fun _ _ => by simp [Auth.failLater]
        · rename_i o _
          exact noHome_hostAccepted (y := { y with opts := o }) ht ..
    · cases pa
      · exact HomeOf.of fun _ _ => by simp [Auth.failLater]
      · exact noHome_accept ht ..
end

/-- Nobody is logged in, and the key file is not being read. -/
def NoId (y : Auth) : Prop := y.authenticated = false ∧ ∀ r k, y.task ≠ some (.home r k)

theorem NoId.inv {cfg : AuthCfg} {y : Auth} (h : NoId y) : IdInv cfg y :=
  ⟨fun ha => by rw [h.1] at ha; simp at ha, fun r k ht => absurd ht (h.2 r k)⟩

theorem id_accountKnown {cfg : AuthCfg} {y : Auth} (h : y.authenticated = false) (ht : y.task = none) {r : AuthReq}
    {pw : Bytes} {async : Bool} {t : Translation} (hy : y.translation = some t) (hu : t.user = r.user)
    (htr : cfg.translation = true) : IdInv cfg (y.accountKnown cfg r pw t.account async) := by
  unfold Auth.accountKnown
  cases hok : t.account.ok with
  | false => exact NoId.inv ⟨h, fun r k => by simp [Auth.failLater]⟩
  | true =>
    simp only [Bool.not_true, cond_false]
    cases hv : t.account.shell && !t.account.shellValid with
    | true => exact NoId.inv ⟨h, fun r k => by simp [Auth.disconnect, Auth.applyAccount, ht]⟩
    | false =>
      refine TrCovers.inv (y := y.applyAccount t.account pw) ?_ (sameId_byMethod ..) h
        (home_byMethod (y := y.applyAccount t.account pw) ht h ..).home
      refine ⟨fun _ => ⟨t, hy, hu, hok, ?_, ?_, ?_⟩, fun h1 => by rw [htr] at h1; simp at h1⟩
      · simp only [Auth.applyAccount, Bool.and_eq_true]
        exact fun h => h.2
      · simp only [Auth.applyAccount]
        cases t.account.shell <;> simp
      · intro hs
        rw [hs] at hv
        simpa using hv

theorem noId_malformed {y : Auth} (h : NoId y) (async : Bool) : NoId (y.malformed async) := by
  cases async <;> exact ⟨h.1, h.2⟩

theorem id_afterTarpit {cfg : AuthCfg} {y : Auth} (h : y.authenticated = false) (ht : y.task = none)
    (h0 : cfg.translation = false → y.translation = none) (r : AuthReq)
    (async : Bool) : IdInv cfg (y.afterTarpit cfg r async) := by
  have hq : NoId y := ⟨h, fun r k => by simp [ht]⟩
  have hlazy : cfg.translation = true → ∀ pw, IdInv cfg (y.lazyTranslate cfg r pw async) := by
    intro htr pw
    unfold Auth.lazyTranslate
    have hw : IdInv cfg { y with task := some (.translate r pw) } := NoId.inv ⟨h, fun r k => by simp⟩
    split
    · rename_i t hy
      cases hc : pw.isEmpty && t.user == r.user with
      | false => exact hw
      | true =>
        simp only [Bool.and_eq_true, beq_iff_eq] at hc
        exact id_accountKnown h ht hy hc.2 htr
    · exact hw
  unfold Auth.afterTarpit
  split
  · exact NoId.inv ⟨h, fun r k => by simp [Auth.fail, Auth.complete]⟩
  · cases isValidUsername r.user with
    | false => exact NoId.inv ⟨h, fun r k => by simp [Auth.disconnect, ht]⟩
    | true =>
      simp only [Bool.not_true, cond_false]
      cases htr : cfg.translation with
      | true =>
        simp only [cond_true]
        unfold Auth.withTranslation
        split
        · split
          · exact NoId.inv (noId_malformed hq async)
          · rename_i change password _ _
            cases change || password.isEmpty with
            | true => exact NoId.inv ⟨h, fun r k => by simp [Auth.fail, Auth.complete]⟩
            | false => exact hlazy htr _
        · exact hlazy htr _
      | false =>
        simp only [cond_false]
        cases cfg.getpwnam r.user with
        | false => exact NoId.inv ⟨h, fun r k => by simp [Auth.failLater]⟩
        | true =>
          refine TrCovers.inv (y := y) ⟨fun h1 => ?_, h0⟩ (sameId_byMethod ..) h (home_byMethod ht h ..).home
          rw [htr] at h1; simp at h1

theorem sameId_channelPacket (y : Auth) (m : UInt8) (p : Bytes) {u : Bytes} : SameId u y (y.channelPacket m p) := by
  unfold Auth.channelPacket
  split
  · split
    · exact ⟨rfl, rfl, rfl, .inr ⟨rfl, rfl⟩⟩
    · unfold Auth.createChannel
      split
      · cases y.noMoreSessions <;> exact ⟨rfl, rfl, rfl, .inr ⟨rfl, rfl⟩⟩
      · split
        · cases y.isForwardingAllowed
          · exact ⟨rfl, rfl, rfl, .inr ⟨rfl, rfl⟩⟩
          · simp only [Bool.not_true, cond_false]
            split <;> exact ⟨rfl, rfl, rfl, .inr ⟨rfl, rfl⟩⟩
        · split
          · cases y.isLocalForwardingAllowed
            · exact ⟨rfl, rfl, rfl, .inr ⟨rfl, rfl⟩⟩
            · simp only [Bool.not_true, cond_false]
              split <;> exact ⟨rfl, rfl, rfl, .inr ⟨rfl, rfl⟩⟩
          · exact ⟨rfl, rfl, rfl, .inr ⟨rfl, rfl⟩⟩
  · exact ⟨rfl, rfl, rfl, .inr ⟨rfl, rfl⟩⟩

theorem sameId_globalPacket (y : Auth) (p : Bytes) {u : Bytes} : SameId u y (y.globalPacket p) := by
  unfold Auth.globalPacket
  split
  · exact ⟨rfl, rfl, rfl, .inr ⟨rfl, rfl⟩⟩
  · unfold Auth.globalRequest
    split
    · cases y.isForwardingAllowed
      · exact ⟨rfl, rfl, rfl, .inr ⟨rfl, rfl⟩⟩
      · simp only [Bool.not_true, cond_false]
        split <;> exact ⟨rfl, rfl, rfl, .inr ⟨rfl, rfl⟩⟩
    · split
      · split <;> exact ⟨rfl, rfl, rfl, .inr ⟨rfl, rfl⟩⟩
      · split
        · exact ⟨rfl, rfl, rfl, .inr ⟨rfl, rfl⟩⟩
        · split
          · unfold Auth.optionsRequest
            cases y.hostbased
            · exact ⟨rfl, rfl, rfl, .inr ⟨rfl, rfl⟩⟩
            · simp only [Bool.not_true, cond_false]
              split
              · exact ⟨rfl, rfl, rfl, .inr ⟨rfl, rfl⟩⟩
              · rename_i o _
                cases (y.opts.restrict o).2 <;> exact ⟨rfl, rfl, rfl, .inr ⟨rfl, rfl⟩⟩
          · exact ⟨rfl, rfl, rfl, .inr ⟨rfl, rfl⟩⟩

theorem sameId_transport (y : Auth) (m : UInt8) {u : Bytes} : SameId u y (y.transportPacket m) := by
  unfold Auth.transportPacket
  split
  · exact ⟨rfl, rfl, rfl, .inr ⟨rfl, rfl⟩⟩
  · split <;> exact ⟨rfl, rfl, rfl, .inr ⟨rfl, rfl⟩⟩

theorem sameId_packet {cfg : AuthCfg} {y : Auth} (ha : y.authenticated = true) (m : UInt8) (p : Bytes) (d : Bool) :
    SameId y.username y (y.packet cfg m p d) := by
  simp only [Auth.packet, Auth.laterHandlers]
  cases y.proxied && shouldProxy m
  · cases y.channels && isChannelMessage m
    · cases y.channels && (m == MSG_GLOBAL_REQUEST)
      · simp only [cond_false]
        unfold Auth.userAuthPacket
        cases y.userAuth
        · exact sameId_transport ..
        · simp only [Bool.not_true, cond_false]
          cases y.task.isSome && !allowedWhileOccupied m
          · simp only [cond_false]
            split
            · unfold Auth.serviceRequest
              split
              · exact ⟨rfl, rfl, rfl, .inr ⟨rfl, rfl⟩⟩
              · split <;> exact ⟨rfl, rfl, rfl, .inr ⟨rfl, rfl⟩⟩
            · split
              · unfold Auth.handleUserauthRequest
                rw [ha]
                exact SameId.refl _ _
              · exact sameId_transport ..
          · exact ⟨rfl, rfl, rfl, .inr ⟨rfl, rfl⟩⟩
      · exact sameId_globalPacket ..
    · exact sameId_channelPacket ..
  · exact ⟨rfl, rfl, rfl, .inr ⟨rfl, rfl⟩⟩

/-- After login nothing relevant changes any more. -/
theorem sameId_authenticated {cfg : AuthCfg} {y : Auth} (ha : y.authenticated = true)
    (ht : y.task = none ∨ y.task = some .connect) (ev : AuthEv) : SameId y.username y (y.step cfg ev) := by
  have htask : ∀ ev, SameId y.username y (match y.task with | none => y | some t => y.resume cfg t ev) := by
    intro ev
    rcases ht with ht | ht <;> rw [ht]
    · exact SameId.refl _ y
    · simp only
      unfold Auth.resume
      split <;> first | contradiction | exact ⟨rfl, rfl, rfl, .inr ⟨rfl, rfl⟩⟩
  unfold Auth.step
  cases y.stop with
  | true => exact SameId.refl _ y
  | false =>
    simp only [cond_false]
    cases ev with
    | encrypted => cases y.encrypted <;> exact ⟨rfl, rfl, rfl, .inr ⟨rfl, rfl⟩⟩
    | packet m p d =>
      exact SameId.trans (b := y.say (.received m p)) ⟨rfl, rfl, rfl, .inr ⟨rfl, rfl⟩⟩ (sameId_packet (y := y.say (.received m p)) ha m p d)
    | targetSuccess =>
      cases y.outgoing && !y.targetDone
      · exact SameId.refl _ y
      · simp only [cond_true, Auth.targetReady]
        split <;> exact ⟨rfl, rfl, rfl, .inr ⟨rfl, rfl⟩⟩
    | targetPacket m p =>
      simp only
      cases h1 : y.proxied
      · exact SameId.refl _ y
      · simp only [cond_true]
        cases shouldProxy m <;> exact ⟨rfl, rfl, rfl, .inr ⟨rfl, rfl⟩⟩
    | targetDisconnecting => exact ⟨rfl, rfl, rfl, .inr ⟨rfl, rfl⟩⟩
    | targetGone => cases y.outgoing <;> exact ⟨rfl, rfl, rfl, .inr ⟨rfl, rfl⟩⟩
    | authTimeout => rw [ha]; exact SameId.refl _ y
    | closed => exact ⟨rfl, rfl, rfl, .inr ⟨rfl, rfl⟩⟩
    | timer => exact htask _
    | translated a => exact htask _
    | home t => exact htask _
    | connected ok => exact htask _

theorem sameId_packet_unauth {y : Auth} (hc : y.channels = false) (hp : y.proxied = false) (cfg : AuthCfg) (m : UInt8)
    (p : Bytes) (d : Bool) : y.packet cfg m p d = y.userAuthPacket cfg m p d := by
  simp [Auth.packet, Auth.laterHandlers, hc, hp]

theorem quiet_or_same {cfg : AuthCfg} {y y' : Auth} (h : IdInv cfg y) (ha : y.authenticated = false)
    (ha' : y'.authenticated = false) (ht : y'.task = y.task) (hs : SameId [] y y') : IdInv cfg y' :=
  ⟨fun h1 => by rw [ha'] at h1; simp at h1, fun r k h1 => ⟨ha', (h.home r k (ht ▸ h1)).2.same hs⟩⟩

/-- One step before login. -/
theorem id_pre {cfg : AuthCfg} {y : Auth} (h : IdInv cfg y) (hpre : Pre cfg y) (hst : y.stop = true ∨ TaskOk cfg y y.task)
    (ev : AuthEv) : IdInv cfg (y.step cfg ev) := by
  have ha := hpre.auth
  have keep : ∀ y', y'.authenticated = false → y'.task = y.task → SameId [] y y' → IdInv cfg y' :=
    fun y' h1 h2 h3 => quiet_or_same h ha h1 h2 h3
  unfold Auth.step
  cases hs : y.stop with
  | true => exact h
  | false =>
    have ht : TaskOk cfg y y.task := by
      rcases hst with h1 | h1
      · rw [hs] at h1; simp at h1
      · exact h1
    have htask : ∀ ev, IdInv cfg (match y.task with | none => y | some t => y.resume cfg t ev) := by
      intro ev
      cases htk : y.task with
      | none => exact h
      | some t =>
        simp only
        unfold Auth.resume
        split
        · exact id_afterTarpit (y := { y with task := none }) ha rfl hpre.tr _ _
        · rename_i r pw a
          cases a with
          | none => exact NoId.inv ⟨ha, fun r k => by simp [Auth.translated, Auth.disconnect]⟩
          | some a =>
            simp only [Auth.translated]
            exact id_accountKnown (y := { y with task := none, translation := some { user := r.user, password := pw, account := a }, log := y.log ++ [AuthEntry.account r.user pw a] }) (t := { user := r.user, password := pw, account := a }) ha rfl rfl rfl
              (by rw [htk] at ht; exact ht.2.2.1)
        · rename_i r k text
          have hc := h.home r k htk
          unfold Auth.homeRead
          simp only
          split
          · rename_i o _
            refine TrCovers.inv (y := { { y with task := none }.say (.homeKeys text) with opts := o }) ?_
              (sameId_keyAccepted ..) ha (noHome_keyAccepted rfl ..).home
            exact hc.2.same (u := []) ⟨rfl, rfl, rfl, .inr ⟨rfl, rfl⟩⟩
          · exact NoId.inv ⟨ha, fun r k => by simp [Auth.failLater]⟩
        · exact NoId.inv ⟨by simp [Auth.fail, Auth.complete, Auth.say, ha], fun r k => by simp [Auth.fail, Auth.complete]⟩
        · rw [htk] at ht; exact absurd ht id
        · rw [htk] at ht; exact absurd ht id
        · exact h
    simp only [cond_false]
    cases ev with
    | encrypted =>
      cases y.encrypted
      · exact keep _ ha rfl ⟨rfl, rfl, rfl, .inr ⟨rfl, rfl⟩⟩
      · exact h
    | packet m p d =>
      simp only
      rw [sameId_packet_unauth (y := y.say (.received m p)) hpre.chan hpre.prox]
      unfold Auth.userAuthPacket
      cases hua : (y.say (.received m p)).userAuth
      · refine keep _ ?_ ?_ (SameId.trans (b := y.say (.received m p)) ⟨rfl, rfl, rfl, .inr ⟨rfl, rfl⟩⟩ (sameId_transport ..))
        · simp only [Bool.not_false, cond_true]; unfold Auth.transportPacket; split
          · exact ha
          · split <;> exact ha
        · simp only [Bool.not_false, cond_true]; unfold Auth.transportPacket; split
          · rfl
          · split <;> rfl
      · simp only [Bool.not_true, cond_false]
        cases hoc : (y.say (.received m p)).task.isSome && !allowedWhileOccupied m with
        | true => exact keep _ ha rfl ⟨rfl, rfl, rfl, .inr ⟨rfl, rfl⟩⟩
        | false =>
          simp only [cond_false]
          split
          · unfold Auth.serviceRequest
            split
            · exact keep _ ha rfl ⟨rfl, rfl, rfl, .inr ⟨rfl, rfl⟩⟩
            · split <;> exact keep _ ha rfl ⟨rfl, rfl, rfl, .inr ⟨rfl, rfl⟩⟩
          · split
            · rename_i hm
              have hnone : y.task = none := by
                have h1 : allowedWhileOccupied m = false := by rw [hm]; decide
                rw [h1] at hoc
                simpa [Auth.say] using hoc
              unfold Auth.handleUserauthRequest
              have : (y.say (.received m p)).authenticated = false := ha
              rw [this]
              simp only [cond_false]
              cases (y.say (.received m p)).haveService
              · exact keep _ ha rfl ⟨rfl, rfl, rfl, .inr ⟨rfl, rfl⟩⟩
              · simp only [Bool.not_true, cond_false]
                unfold Auth.userAuthRequest
                split
                · exact keep _ ha rfl ⟨rfl, rfl, rfl, .inr ⟨rfl, rfl⟩⟩
                · cases d
                  · exact id_afterTarpit (y := y.say (.received m p)) ha hnone hpre.tr _ _
                  · exact NoId.inv ⟨ha, fun r k => by simp⟩
            · refine keep _ ?_ ?_ (SameId.trans (b := y.say (.received m p)) ⟨rfl, rfl, rfl, .inr ⟨rfl, rfl⟩⟩ (sameId_transport ..))
              · unfold Auth.transportPacket; split
                · exact ha
                · split <;> exact ha
              · unfold Auth.transportPacket; split
                · rfl
                · split <;> rfl
    | targetSuccess => rw [hpre.out]; exact h
    | targetPacket m p => rw [hpre.prox]; exact h
    | targetDisconnecting => exact keep _ ha rfl ⟨rfl, rfl, rfl, .inr ⟨rfl, rfl⟩⟩
    | targetGone => rw [hpre.out]; exact h
    | authTimeout => rw [ha]; exact keep _ ha rfl ⟨rfl, rfl, rfl, .inr ⟨rfl, rfl⟩⟩
    | closed => exact keep _ ha rfl ⟨rfl, rfl, rfl, .inr ⟨rfl, rfl⟩⟩
    | timer => exact htask _
    | translated a => exact htask _
    | home t => exact htask _
    | connected ok => exact htask _

theorem id_run (cfg : AuthCfg) (evs : List AuthEv) : IdInv cfg (Auth.run cfg {} evs) := by
  induction evs using Aux.snoc_ind with
  | h0 => exact NoId.inv ⟨rfl, fun r k => by simp [Auth.run]⟩
  | h1 evs ev ih =>
    have hinv := inv_run (cfg := cfg) evs
    simp only [Auth.run, List.foldl_append, List.foldl_cons, List.foldl_nil] at ih hinv ⊢
    rcases hinv with ⟨h1, h2⟩ | h1
    · exact id_pre ih h1 (h2.imp id (·.2)) ev
    · refine TrCovers.post (ih.auth h1.auth) (sameId_authenticated h1.auth h1.task ev) ?_
      intro r k h2
      have := (post_step h1 ev).task
      rw [h2] at this
      simp at this

/-- After login, the permissions are covered by what the translation server said. -/
theorem covers_run {cfg : AuthCfg} {evs : List AuthEv} (h : (Auth.run cfg {} evs).authenticated = true) :
    TrCovers cfg (Auth.run cfg {} evs) (Auth.run cfg {} evs).username := (id_run cfg evs).auth h

end Lukko
