import Verif.Proof.AuthFwd
/-
  The methods offered in USERAUTH_FAILURE (for C66).
-/
namespace Lukko
open Model Spec

def MethodsOk (cfg : AuthCfg) (a : List AuthEntry) (m : Bytes) : Prop :=
  m = authMethods cfg ∨ (m = [] ∧ NothingToOffer a)

theorem NothingToOffer.append {a d : List AuthEntry} (h : NothingToOffer a) : NothingToOffer (a ++ d) := by
  rcases h with ⟨u, p, acct, h1, h2⟩ | ⟨u, s, r, h1, h2⟩
  · exact .inl ⟨u, p, acct, List.mem_append_left _ h1, h2⟩
  · exact .inr ⟨u, s, r, List.mem_append_left _ h1, h2⟩

theorem MethodsOk.append {cfg a d m} (h : MethodsOk cfg a m) : MethodsOk cfg (a ++ d) m :=
  h.imp id fun h => ⟨h.1, NothingToOffer.append h.2⟩

def FailOk (cfg : AuthCfg) (a : List AuthEntry) : AuthEntry → Prop
  | .failure m => MethodsOk cfg a m
  | _ => True

def isFailure : AuthEntry → Bool
  | .failure _ => true
  | _ => false

/-- The request was received. -/
def WasReceived (log : List AuthEntry) (r : AuthReq) : Prop :=
  .received 50 r.payload ∈ log ∧ r.payload = str r.user ++ (str r.service ++ (str r.method ++ r.rest))

structure MethInv (cfg : AuthCfg) (y : Auth) : Prop where
  prev : AllPrev (FailOk cfg) y.log
  task : ∀ m, y.task = some (.failSleep m) → MethodsOk cfg y.log m
  tarpit : ∀ r, y.task = some (.tarpit r) → WasReceived y.log r
  tr : ∀ t, y.translation = some t → .account t.user t.password t.account ∈ y.log

/-- Neither of the two tasks of interest. -/
def OtherTask (t : Option AuthTask) : Prop := (∀ m, t ≠ some (.failSleep m)) ∧ ∀ r, t ≠ some (.tarpit r)

theorem allPrev_append {cfg} {log d : List AuthEntry} (h : AllPrev (FailOk cfg) log) (hd : ∀ e ∈ d, isFailure e = false) :
    AllPrev (FailOk cfg) (log ++ d) := by
  induction d using Aux.snoc_ind with
  | h0 => simpa using h
  | h1 d e ih =>
    rw [← List.append_assoc]
    refine allPrev_snoc (ih fun x hx => hd x (by simp [hx])) ?_
    have := hd e (by simp)
    cases e <;> first | trivial | simp [isFailure] at this

variable {cfg : AuthCfg} {y y' : Auth}

theorem MethInv.keep (h : MethInv cfg y) (hl : ∃ d, y'.log = y.log ++ d ∧ ∀ e ∈ d, isFailure e = false)
    (ht : y'.task = y.task ∨ OtherTask y'.task) (htr : y'.translation = y.translation) : MethInv cfg y' := by
  obtain ⟨d, e, hd⟩ := hl
  refine ⟨by rw [e]; exact allPrev_append h.prev hd, ?_, ?_, ?_⟩
  · intro m hm
    rcases ht with ht | ht
    · rw [e]; exact (h.task m (by rw [← ht]; exact hm)).append
    · exact absurd hm (ht.1 m)
  · intro r hr
    rcases ht with ht | ht
    · obtain ⟨h1, h2⟩ := h.tarpit r (by rw [← ht]; exact hr)
      exact ⟨by rw [e]; exact List.mem_append_left _ h1, h2⟩
    · exact absurd hr (ht.2 r)
  · intro t ht
    rw [htr] at ht
    rw [e]; exact List.mem_append_left _ (h.tr t ht)

theorem MethInv.same (h : MethInv cfg y) (hl : y'.log = y.log) (ht : y'.task = y.task ∨ OtherTask y'.task)
    (htr : y'.translation = y.translation) : MethInv cfg y' := h.keep ⟨[], by simp [hl], by simp⟩ ht htr

theorem MethInv.one (h : MethInv cfg y) (e : AuthEntry) (he : isFailure e = false := by rfl) (hl : y'.log = y.log ++ [e] := by rfl)
    (ht : y'.task = y.task ∨ OtherTask y'.task := by exact .inl rfl) (htr : y'.translation = y.translation := by rfl) : MethInv cfg y' :=
  h.keep ⟨[e], hl, by simpa using he⟩ ht htr

theorem OtherTask.none : OtherTask none := ⟨by simp, by simp⟩

theorem MethInv.complete (h : MethInv cfg y) (async) : MethInv cfg (y.complete cfg async) :=
  h.same rfl (.inr .none) rfl

theorem MethInv.fail (h : MethInv cfg y) {m} (hm : MethodsOk cfg y.log m) (async) : MethInv cfg (y.fail cfg m async) := by
  refine ⟨allPrev_snoc h.prev hm, by simp [Auth.fail, Auth.complete], by simp [Auth.fail, Auth.complete], ?_⟩
  intro t ht
  exact List.mem_append_left _ (h.tr t ht)

theorem MethInv.failLater (h : MethInv cfg y) {m} (hm : MethodsOk cfg y.log m) : MethInv cfg (y.failLater m) := by
  refine ⟨h.prev, ?_, by simp [Auth.failLater], h.tr⟩
  intro m' hm'
  simp only [Auth.failLater, Option.some.injEq, AuthTask.failSleep.injEq] at hm'
  subst hm'
  exact hm

theorem MethInv.disconnect (h : MethInv cfg y) (n) : MethInv cfg (y.disconnect n) := h.one (.disconnected n)
theorem MethInv.close (h : MethInv cfg y) : MethInv cfg y.close := h.one .closed
theorem MethInv.malformed (h : MethInv cfg y) (async) : MethInv cfg (y.malformed async) := by
  cases async
  · exact h.disconnect 2
  · exact h.close

theorem MethodsOk.all {a} : MethodsOk cfg a (authMethods cfg) := .inl rfl

theorem MethInv.accept (h : MethInv cfg y) (r async) : MethInv cfg (y.accept cfg r async) := by
  unfold Auth.accept
  simp only
  split
  · exact h.keep ⟨[_, .closed], by simp [Auth.close]; rfl, by simp [isFailure]⟩ (.inl rfl) rfl
  · exact h.keep ⟨[_], rfl, by simp [isFailure]⟩ (.inr ⟨by simp, by simp⟩) rfl
  · refine MethInv.complete ?_ _
    exact h.keep ⟨[_, .success], by simp; rfl, by simp [isFailure]⟩ (.inl rfl) rfl

theorem MethInv.checkKeySignature (h : MethInv cfg y) (r k sig async) : MethInv cfg (y.checkKeySignature cfg r k sig async) := by
  unfold Auth.checkKeySignature
  split
  · exact h.fail .all _
  · split
    · exact h.fail .all _
    · exact h.failLater .all
    · exact h.accept _ _

theorem MethInv.keyAccepted (h : MethInv cfg y) (r k async) : MethInv cfg (y.keyAccepted cfg r k async) := by
  unfold Auth.keyAccepted
  simp only [Bool.cond_eq_ite]
  split
  · exact h.fail .all _
  · split
    · split
      · exact h.malformed _
      · exact MethInv.complete (h.one (.keyOk k.alg k.blob)) _
    · split
      · exact h.malformed _
      · exact h.checkKeySignature _ _ _ _

theorem MethInv.publickey (h : MethInv cfg y) (r async) : MethInv cfg (y.publickey cfg r async) := by
  unfold Auth.publickey
  split
  · exact h.malformed _
  · split
    · refine MethInv.keyAccepted ?_ _ _ _
      exact h.same rfl (.inl rfl) rfl
    · simp only [Bool.cond_eq_ite]
      split
      · exact h.same rfl (.inr ⟨by simp, by simp⟩) rfl
      · exact h.failLater .all

theorem MethInv.hostBased (h : MethInv cfg y) (r async) : MethInv cfg (y.hostBased cfg r async) := by
  unfold Auth.hostBased
  split
  · exact h.malformed _
  · split
    · exact h.failLater .all
    · rename_i o _
      have h : MethInv cfg { y with opts := o } := h.same rfl (.inl rfl) rfl
      unfold Auth.hostAccepted
      simp only [Bool.cond_eq_ite]
      split
      · exact h.fail .all _
      · split
        · exact h.fail .all _
        · split
          · refine MethInv.accept ?_ _ _
            exact h.same rfl (.inl rfl) rfl
          · exact h.fail .all _

theorem MethInv.byMethod (h : MethInv cfg y) (r pa async) : MethInv cfg (y.byMethod cfg r pa async) := by
  unfold Auth.byMethod
  split
  · exact h.publickey _ _
  · split
    · exact h.hostBased _ _
    · cases pa
      · exact h.failLater .all
      · exact h.accept _ _

theorem MethInv.accountKnown (h : MethInv cfg y) (r pw) {a u p} (ha : .account u p a ∈ y.log) (async) :
    MethInv cfg (y.accountKnown cfg r pw a async) := by
  unfold Auth.accountKnown
  cases hok : a.ok
  · exact h.failLater (.inr ⟨rfl, .inl ⟨u, p, a, ha, hok⟩⟩)
  · have h : MethInv cfg (y.applyAccount a pw) := h.same rfl (.inl rfl) rfl
    simp only [Bool.not_true, cond_false]
    simp only [Bool.cond_eq_ite]
    split
    · exact h.disconnect _
    · exact h.byMethod _ _ _

theorem MethInv.lazyTranslate (h : MethInv cfg y) (r pw async) : MethInv cfg (y.lazyTranslate cfg r pw async) := by
  unfold Auth.lazyTranslate
  split
  · rename_i t ht
    simp only [Bool.cond_eq_ite]
    split
    · exact h.accountKnown r pw (h.tr t ht) async
    · exact h.same rfl (.inr ⟨by simp, by simp⟩) rfl
  · exact h.same rfl (.inr ⟨by simp, by simp⟩) rfl

theorem MethInv.afterTarpit (h : MethInv cfg y) {r} (hr : WasReceived y.log r) (async) : MethInv cfg (y.afterTarpit cfg r async) := by
  unfold Auth.afterTarpit
  split
  · rename_i hs
    refine h.fail (.inr ⟨rfl, .inr ⟨r.user, r.service, str r.method ++ r.rest, ?_, hs⟩⟩) _
    rw [← hr.2]; exact hr.1
  · simp only [Bool.cond_eq_ite]
    split
    · exact h.disconnect _
    · split
      · unfold Auth.withTranslation
        split
        · split
          · exact h.malformed _
          · simp only [Bool.cond_eq_ite]
            split
            · exact h.fail .all _
            · exact h.lazyTranslate _ _ _
        · exact h.lazyTranslate _ _ _
      · split
        · exact h.failLater .all
        · exact h.byMethod _ _ _

theorem MethInv.userAuthRequest (h : MethInv cfg y) {p} (hp : .received 50 p ∈ y.log) (d) : MethInv cfg (y.userAuthRequest cfg p d) := by
  unfold Auth.userAuthRequest
  split
  · exact h.malformed _
  · rename_i r hr
    have hi := parseAuthReq_inv hr
    have hw : WasReceived y.log r := ⟨by rw [hi.1]; exact hp, by rw [hi.1]; exact hi.2⟩
    cases d
    · exact h.afterTarpit hw _
    · refine ⟨h.prev, by simp, ?_, h.tr⟩
      intro r' hr'
      simp only [cond_true, Option.some.injEq, AuthTask.tarpit.injEq] at hr'
      subst hr'
      exact hw

theorem MethInv.transport (h : MethInv cfg y) (m) : MethInv cfg (y.transportPacket m) := by
  unfold Auth.transportPacket
  split
  · exact h.close
  · split
    · exact h
    · exact h.one .unimplemented

theorem MethInv.userAuthPacket (h : MethInv cfg y) {m p} (hp : .received m p ∈ y.log) (d) : MethInv cfg (y.userAuthPacket cfg m p d) := by
  unfold Auth.userAuthPacket
  simp only [Bool.cond_eq_ite]
  split
  · exact h.transport _
  · split
    · exact h.disconnect _
    · split
      · unfold Auth.serviceRequest
        split
        · exact h.malformed _
        · split
          · rename_i name _ _; exact h.one (.serviceAccepted name)
          · exact h.disconnect _
      · split
        · rename_i hm
          unfold Auth.handleUserauthRequest
          simp only [Bool.cond_eq_ite]
          split
          · exact h
          · split
            · exact h.disconnect _
            · exact h.userAuthRequest (by rw [hm] at hp; exact hp) _
        · exact h.transport _

theorem MethInv.channelPacket (h : MethInv cfg y) (m p) : MethInv cfg (y.channelPacket m p) := by
  unfold Auth.channelPacket
  split
  · split
    · exact h.malformed _
    · unfold Auth.createChannel
      simp only [Bool.cond_eq_ite]
      split
      · split
        · exact h.disconnect _
        · exact h.one .openSession
      · split
        · split
          · exact h.one (.openRefused 1)
          · split
            · exact h.malformed _
            · exact h.one (.connectTcp _ _)
        · split
          · split
            · exact h.one (.openRefused 1)
            · split
              · exact h.malformed _
              · exact h.one (.connectLocal _)
          · exact h.one (.openRefused 3)
  · exact h.one (.channelMessage m p)

theorem MethInv.globalPacket (h : MethInv cfg y) (p) : MethInv cfg (y.globalPacket p) := by
  unfold Auth.globalPacket
  split
  · exact h.malformed _
  · unfold Auth.globalRequest
    simp only [Bool.cond_eq_ite]
    split
    · split
      · exact h.one (.requestRefused _)
      · split
        · exact h.close
        · exact h.one (.bindTcp _ _)
    · split
      · split
        · exact h.close
        · exact h.one (.unbindTcp _ _)
      · split
        · exact h.one .noMoreSessions
        · split
          · unfold Auth.optionsRequest
            simp only [Bool.cond_eq_ite]
            split
            · exact h.one (.requestRefused _)
            · split
              · exact h.close
              · split
                · exact h.one (.restricted _)
                · exact h.one (.requestRefused _)
          · exact h.one (.requestRefused _)

theorem MethInv.packet (h : MethInv cfg y) {m p} (hp : .received m p ∈ y.log) (d) : MethInv cfg (y.packet cfg m p d) := by
  unfold Auth.packet Auth.laterHandlers
  simp only [Bool.cond_eq_ite]
  split
  · rename_i z hz
    split at hz
    · simp only [Option.some.injEq] at hz; subst hz; exact h.one (.toTarget m p)
    · split at hz
      · simp only [Option.some.injEq] at hz; subst hz; exact h.channelPacket _ _
      · split at hz
        · simp only [Option.some.injEq] at hz; subst hz; exact h.globalPacket _
        · simp at hz
  · exact h.userAuthPacket hp d

theorem MethInv.resume (h : MethInv cfg y) {t} (ht : y.task = some t) (ev) : MethInv cfg (y.resume cfg t ev) := by
  unfold Auth.resume
  split
  · rename_i r
    exact MethInv.afterTarpit (h.same (y' := { y with task := none }) rfl (.inr .none) rfl) (h.tarpit r ht) _
  · rename_i r pw a
    cases a with
    | none => exact MethInv.disconnect (h.same (y' := { y with task := none }) rfl (.inr .none) rfl) _
    | some a =>
      simp only [Auth.translated]
      refine MethInv.accountKnown (u := r.user) (p := pw) ?_ _ _ (by simp) _
      refine ⟨allPrev_snoc h.prev trivial, by simp, by simp, ?_⟩
      intro t ht
      simp only [Option.some.injEq] at ht
      subst ht
      simp
  · rename_i r k text
    have h1 : MethInv cfg ({ y with task := none }.say (.homeKeys text)) := h.one (.homeKeys text) (ht := .inr .none)
    unfold Auth.homeRead
    simp only
    split
    · refine MethInv.keyAccepted ?_ _ _ _
      exact h1.same rfl (.inl rfl) rfl
    · exact h1.failLater .all
  · rename_i m
    exact h.fail (h.task m ht) _
  · refine MethInv.complete ?_ _
    exact h.same rfl (.inl rfl) rfl
  · exact h.close
  · exact h

theorem MethInv.step (h : MethInv cfg y) (ev) : MethInv cfg (y.step cfg ev) := by
  have htask : ∀ ev, MethInv cfg (match y.task with | none => y | some t => y.resume cfg t ev) := by
    intro ev
    split
    · exact h
    · rename_i t ht; exact h.resume ht ev
  unfold Auth.step
  cases y.stop with
  | true => exact h
  | false =>
    simp only [cond_false]
    cases ev with
    | encrypted =>
      cases y.encrypted
      · exact h.one .encrypted
      · exact h
    | packet m p d => exact MethInv.packet (h.one (y' := y.say (.received m p)) (.received m p)) (by simp [Auth.say]) d
    | targetSuccess =>
      cases y.outgoing && !y.targetDone
      · exact h
      · simp only [cond_true, Auth.targetReady]
        split
        · exact h.one (.disconnected 10)
        · exact h.keep ⟨_, rfl, by simp [isFailure]⟩ (.inl rfl) rfl
    | targetPacket m p =>
      cases y.proxied
      · exact h
      · simp only [cond_true]
        cases shouldProxy m
        · exact h.one (.targetReceived m p)
        · exact h.keep ⟨_, rfl, by simp [isFailure]⟩ (.inl rfl) rfl
    | targetDisconnecting => exact h.same rfl (.inl rfl) rfl
    | targetGone =>
      cases y.outgoing
      · exact h
      · exact h.disconnect _
    | authTimeout =>
      cases y.authenticated
      · exact h.disconnect _
      · exact h
    | closed => exact h.close
    | timer => exact htask _
    | translated a => exact htask _
    | home t => exact htask _
    | connected ok => exact htask _

theorem meth_run (cfg : AuthCfg) (evs : List AuthEv) : MethInv cfg (Auth.run cfg {} evs) := by
  induction evs using Aux.snoc_ind with
  | h0 => exact ⟨allPrev_nil _, by simp [Auth.run], by simp [Auth.run], by simp [Auth.run]⟩
  | h1 evs ev ih =>
    unfold Auth.run
    rw [List.foldl_append]
    exact ih.step ev

theorem authMethods_usable (cfg : AuthCfg) : OffersUsable cfg.world (authMethods cfg) := by
  have hh : (∃ key, cfg.world.hostKey key ≠ none) ↔ cfg.hostKeys ≠ [] := by
    simp only [AuthCfg.world, KeySet.find]
    cases hc : cfg.hostKeys with
    | nil => simp
    | cons x l =>
      simp only [ne_eq, reduceCtorEq, not_false_eq_true, iff_true]
      exact ⟨x.1, by simp⟩
  have ht : cfg.world.translation = cfg.translation := rfl
  have d1 : ascii "publickey" ≠ ascii "hostbased" := by decide
  have d2 : ascii "publickey" ≠ ascii "password" := by decide
  have d3 : ascii "hostbased" ≠ ascii "password" := by decide
  unfold authMethods OffersUsable MethodUsable
  simp only [hh, ht]
  cases hk : cfg.hostKeys.isEmpty
  · have : cfg.hostKeys ≠ [] := by simpa using hk
    cases cfg.translation
    · refine ⟨[ascii "publickey", ascii "hostbased"], by decide, by decide, fun n => ?_⟩
      simp [this]
    · refine ⟨[ascii "publickey", ascii "hostbased", ascii "password"], by decide, by decide, fun n => ?_⟩
      simp [this]
  · have : cfg.hostKeys = [] := by simpa using hk
    cases cfg.translation
    · refine ⟨[ascii "publickey"], by decide, by decide, fun n => ?_⟩
      simp [this]
    · refine ⟨[ascii "publickey", ascii "password"], by decide, by decide, fun n => ?_⟩
      simp [this]

end Lukko
