import Verif.Proof.AuthInv
/-
  Forwarding between a client and a target server.
-/
namespace Lukko
open Model Spec

/-- Neither received from nor forwarded to anybody. -/
def quiet : AuthEntry → Bool
  | .received .. | .targetReceived .. | .toTarget .. | .toClient .. => false
  | _ => true

/-- Nothing is forwarded. -/
structure QuietStep (y y' : Auth) : Prop where
  log : ∃ d, y'.log = y.log ++ d ∧ ∀ e ∈ d, quiet e = true
  prox : y'.proxied = y.proxied
  tdone : y'.targetDone = y.targetDone

theorem QuietStep.refl (y : Auth) : QuietStep y y := ⟨⟨[], by simp, by simp⟩, rfl, rfl⟩

theorem QuietStep.one {y y' : Auth} {e : AuthEntry} (he : quiet e = true := by rfl)
    (h1 : y'.log = y.log ++ [e] := by rfl) (h2 : y'.proxied = y.proxied := by rfl)
    (h3 : y'.targetDone = y.targetDone := by rfl) : QuietStep y y' := ⟨⟨[e], h1, by simpa using he⟩, h2, h3⟩

theorem quiet_malformed (y : Auth) (b : Bool) : QuietStep y (y.malformed b) := by
  cases b
  · exact .one (e := .disconnected 2)
  · exact .one (e := .closed)

theorem quiet_transport (y : Auth) (m : UInt8) : QuietStep y (y.transportPacket m) := by
  unfold Auth.transportPacket
  split
  · exact .one (e := .closed)
  · split
    · exact .refl y
    · exact .one (e := .unimplemented)

theorem quiet_service (y : Auth) (p : Bytes) : QuietStep y (y.serviceRequest p) := by
  unfold Auth.serviceRequest
  split
  · exact quiet_malformed y _
  · split
    · rename_i name _ _; exact .one (e := .serviceAccepted name)
    · exact .one (e := .disconnected 7)

theorem quiet_userAuth {cfg : AuthCfg} {y : Auth} (ha : y.authenticated = true) (m : UInt8) (p : Bytes) (d : Bool) :
    QuietStep y (y.userAuthPacket cfg m p d) := by
  unfold Auth.userAuthPacket
  cases y.userAuth with
  | false => exact quiet_transport y m
  | true =>
    simp only [Bool.not_true, cond_false]
    cases y.task.isSome && !allowedWhileOccupied m with
    | true => exact .one (e := .disconnected 2)
    | false =>
      simp only [cond_false]
      split
      · exact quiet_service y p
      · split
        · simp only [Auth.handleUserauthRequest, ha, cond_true]; exact .refl y
        · exact quiet_transport y m

theorem quiet_channel (y : Auth) (m : UInt8) (p : Bytes) : QuietStep y (y.channelPacket m p) := by
  unfold Auth.channelPacket
  split
  · split
    · exact quiet_malformed y _
    · unfold Auth.createChannel
      split
      · cases y.noMoreSessions
        · exact .one (e := .openSession)
        · exact .one (e := .disconnected 2)
      split
      · cases y.isForwardingAllowed
        · exact .one (e := .openRefused 1)
        · simp only [Bool.not_true, cond_false]
          split
          · exact quiet_malformed y _
          · rename_i host port _; exact .one (e := .connectTcp host port)
      split
      · cases y.isLocalForwardingAllowed
        · exact .one (e := .openRefused 1)
        · simp only [Bool.not_true, cond_false]
          split
          · exact quiet_malformed y _
          · rename_i path _; exact .one (e := .connectLocal path)
      · exact .one (e := .openRefused 3)
  · exact .one (e := .channelMessage m p)

theorem quiet_global (y : Auth) (p : Bytes) : QuietStep y (y.globalPacket p) := by
  unfold Auth.globalPacket
  split
  · exact quiet_malformed y _
  · unfold Auth.globalRequest
    split
    · cases y.isForwardingAllowed
      · exact .one (e := .requestRefused _)
      · simp only [Bool.not_true, cond_false]
        split
        · exact .one (e := .closed)
        · rename_i host port _; exact .one (e := .bindTcp host port)
    split
    · split
      · exact .one (e := .closed)
      · rename_i host port _; exact .one (e := .unbindTcp host port)
    split
    · exact .one (e := .noMoreSessions)
    split
    · unfold Auth.optionsRequest
      cases y.hostbased
      · exact .one (e := .requestRefused _)
      · simp only [Bool.not_true, cond_false]
        split
        · exact .one (e := .closed)
        · rename_i o _
          cases (y.opts.restrict o).2
          · exact .one (e := .requestRefused _)
          · exact .one (e := .restricted _)
    · exact .one (e := .requestRefused _)

theorem shouldProxy_iff (m : UInt8) : shouldProxy m = true ↔ IsConnectionMessage m := by
  simp only [shouldProxy, IsConnectionMessage, List.contains_iff_mem]

theorem sent_quiet {d : List AuthEntry} (h : ∀ e ∈ d, quiet e = true) :
    sentToTarget d = [] ∧ sentToClient d = [] ∧ fromClient d = [] ∧ fromTarget d = [] := by
  simp only [sentToTarget, sentToClient, fromClient, fromTarget, List.filterMap_eq_nil_iff]
  refine ⟨?_, ?_, ?_, ?_⟩ <;> (intro e he; have := h e he; cases e <;> simp_all [quiet])

@[simp] theorem sentToTarget_append (a b : List AuthEntry) : sentToTarget (a ++ b) = sentToTarget a ++ sentToTarget b :=
  List.filterMap_append
@[simp] theorem sentToClient_append (a b : List AuthEntry) : sentToClient (a ++ b) = sentToClient a ++ sentToClient b :=
  List.filterMap_append
@[simp] theorem fromClient_append (a b : List AuthEntry) : fromClient (a ++ b) = fromClient a ++ fromClient b :=
  List.filterMap_append
@[simp] theorem fromTarget_append (a b : List AuthEntry) : fromTarget (a ++ b) = fromTarget a ++ fromTarget b :=
  List.filterMap_append

/-- What one event adds. -/
structure Fwd (y y' : Auth) : Prop where
  log : ∃ d, y'.log = y.log ++ d ∧
    (y.proxied = true → sentToTarget d = fromClient d ∧ sentToClient d = fromTarget d) ∧
    (y.proxied = false → sentToTarget d = [] ∧ sentToClient d = [] ∧ fromTarget d = [])
  tdone : y.targetDone = true → y'.targetDone = true
  gone : y.targetDone = true → y.proxied = false → y'.proxied = false

theorem QuietStep.fwd {y y' : Auth} (h : QuietStep y y') : Fwd y y' := by
  obtain ⟨d, h1, h2⟩ := h.log
  obtain ⟨g1, g2, g3, g4⟩ := sent_quiet h2
  refine ⟨⟨d, h1, fun _ => by rw [g1, g2, g3, g4]; simp, fun _ => ⟨g1, g2, g4⟩⟩, fun ht => by rw [h.tdone, ht],
    fun _ hp => by rw [h.prox, hp]⟩

theorem fwd_packet {cfg : AuthCfg} {y : Auth} (ha : y.authenticated = true) (hc : y.channels = true → y.proxied = false)
    (m : UInt8) (p : Bytes) (d : Bool) : Fwd y ((y.say (.received m p)).packet cfg m p d) := by
  have hq : (y.proxied = true → ¬ IsConnectionMessage m) → ∀ y', QuietStep (y.say (.received m p)) y' → Fwd y y' := by
    intro hm y' h
    obtain ⟨d, h1, h2⟩ := h.log
    obtain ⟨g1, g2, g3, g4⟩ := sent_quiet h2
    refine ⟨⟨.received m p :: d, by rw [h1]; simp [Auth.say], fun hp => ?_, fun _ => ?_⟩, fun ht => by rw [h.tdone]; exact ht,
      fun _ hp => by rw [h.prox]; exact hp⟩
    · have e : AuthEntry.received m p :: d = [.received m p] ++ d := rfl
      have hm := hm hp
      rw [e]
      simp only [sentToTarget_append, sentToClient_append, fromClient_append, fromTarget_append, g1, g2, g3, g4]
      simp [sentToTarget, sentToClient, fromClient, fromTarget, hm]
    · have e : AuthEntry.received m p :: d = [.received m p] ++ d := rfl
      rw [e]
      simp only [sentToTarget_append, sentToClient_append, fromClient_append, fromTarget_append, g1, g2, g3, g4]
      simp [sentToTarget, sentToClient, fromTarget]
  unfold Auth.packet Auth.laterHandlers
  have e1 : (y.say (.received m p)).proxied = y.proxied := rfl
  have e2 : (y.say (.received m p)).channels = y.channels := rfl
  cases h1 : (y.say (.received m p)).proxied && shouldProxy m with
  | true =>
    simp only [cond_true]
    rw [e1, Bool.and_eq_true, shouldProxy_iff] at h1
    refine ⟨⟨[.received m p, .toTarget m p], by simp [Auth.say], fun _ => ?_, fun hp => ?_⟩, id, fun _ hp => hp⟩
    · simp [sentToTarget, sentToClient, fromClient, fromTarget, h1.2]
    · rw [h1.1] at hp; simp at hp
  | false =>
    rw [e1] at h1
    have hm : y.proxied = true → ¬ IsConnectionMessage m := by
      intro hp; rw [hp, Bool.true_and] at h1
      rw [← shouldProxy_iff, h1]; simp
    simp only [cond_false]
    cases (y.say (.received m p)).channels && isChannelMessage m with
    | true => exact hq hm _ (quiet_channel _ _ _)
    | false =>
      simp only [cond_false]
      cases (y.say (.received m p)).channels && (m == MSG_GLOBAL_REQUEST) with
      | true => exact hq hm _ (quiet_global _ _)
      | false => exact hq hm _ (quiet_userAuth (y := y.say (.received m p)) ha _ _ _)

theorem fwd_resume {cfg : AuthCfg} {y : Auth} {t : AuthTask} (ht : t = .connect) (ev : AuthEv) :
    QuietStep y (y.resume cfg t ev) := by
  subst ht
  cases ev with
  | connected ok =>
    cases ok with
    | true => exact ⟨⟨[], by simp [Auth.resume, Auth.complete], by simp⟩, rfl, rfl⟩
    | false => exact .one (e := .closed)
  | _ => exact .refl y

theorem fwd_step {cfg : AuthCfg} {y : Auth} (h : AuthPost cfg y) (ev : AuthEv) : Fwd y (y.step cfg ev) := by
  unfold Auth.step
  cases y.stop with
  | true => exact (QuietStep.refl y).fwd
  | false =>
    simp only [cond_false]
    have htask : ∀ ev, Fwd y (match y.task with | none => y | some t => y.resume cfg t ev) := by
      intro ev
      rcases h.task with ht | ht
      · rw [ht]; exact (QuietStep.refl y).fwd
      · rw [ht]; exact (fwd_resume rfl ev).fwd
    cases ev with
    | encrypted =>
      cases y.encrypted
      · exact (QuietStep.one (e := .encrypted)).fwd
      · exact (QuietStep.refl y).fwd
    | packet m p d => exact fwd_packet h.auth (fun hc => (h.chan1 hc).2.1) m p d
    | targetSuccess =>
      cases hb : y.outgoing && !y.targetDone
      · exact (QuietStep.refl y).fwd
      · simp only [cond_true]
        simp only [Bool.and_eq_true, Bool.not_eq_true'] at hb
        have hp : y.proxied = true → False := fun hp => by
          have := h.tdone hp; rw [hb.2] at this; simp at this
        have ht : y.targetDone = true → False := fun ht => by rw [hb.2] at ht; simp at ht
        unfold Auth.targetReady
        split
        · exact ⟨⟨[.disconnected 10], rfl, fun h => (hp h).elim, fun _ => ⟨rfl, rfl, rfl⟩⟩, fun _ => rfl,
            fun h => (ht h).elim⟩
        · exact ⟨⟨_, rfl, fun h => (hp h).elim, fun _ => ⟨rfl, rfl, rfl⟩⟩, fun _ => rfl, fun h => (ht h).elim⟩
    | targetPacket m p =>
      cases hp : y.proxied
      · exact (QuietStep.refl y).fwd
      · simp only [cond_true]
        cases hs : shouldProxy m
        · refine ⟨⟨[.targetReceived m p], rfl, fun _ => ?_, fun h => by rw [hp] at h; simp at h⟩, id,
            fun _ h => by rw [hp] at h; simp at h⟩
          have : ¬ IsConnectionMessage m := by rw [← shouldProxy_iff, hs]; simp
          simp [sentToTarget, sentToClient, fromClient, fromTarget, this]
        · refine ⟨⟨[.targetReceived m p, .toClient m p], rfl, fun _ => ?_, fun h => by rw [hp] at h; simp at h⟩, id,
            fun _ h => by rw [hp] at h; simp at h⟩
          rw [shouldProxy_iff] at hs
          simp [sentToTarget, sentToClient, fromClient, fromTarget, hs]
    | targetDisconnecting =>
      refine ⟨⟨[], by simp, fun _ => ⟨rfl, rfl⟩, fun _ => ⟨rfl, rfl, rfl⟩⟩, id, fun _ _ => rfl⟩
    | targetGone =>
      cases y.outgoing
      · exact (QuietStep.refl y).fwd
      · exact (QuietStep.one (e := .disconnected 10)).fwd
    | authTimeout => rw [h.auth]; exact (QuietStep.refl y).fwd
    | closed => exact (QuietStep.one (e := .closed)).fwd
    | timer => exact htask _
    | translated a => exact htask _
    | home t => exact htask _
    | connected ok => exact htask _

/-- What many events add, beginning with a forwarding connection. -/
theorem fwd_run {cfg : AuthCfg} {y : Auth} (h : AuthPost cfg y) (hp : y.proxied = true) (evs : List AuthEv) :
    ∃ d, (Auth.run cfg y evs).log = y.log ++ d ∧ sentToTarget d <+: fromClient d ∧ sentToClient d = fromTarget d ∧
      ((Auth.run cfg y evs).proxied = true → sentToTarget d = fromClient d) ∧
      AuthPost cfg (Auth.run cfg y evs) ∧ (Auth.run cfg y evs).targetDone = true := by
  induction evs using Aux.snoc_ind with
  | h0 => exact ⟨[], by simp [Auth.run], by simp [sentToTarget], by simp [sentToClient, fromTarget],
      fun _ => by simp [sentToTarget, fromClient], h, h.tdone hp⟩
  | h1 evs ev ih =>
    obtain ⟨d, h1, h2, h3, h4, h5, h6⟩ := ih
    have e : Auth.run cfg y (evs ++ [ev]) = (Auth.run cfg y evs).step cfg ev := by simp [Auth.run]
    rw [e]
    have hf := fwd_step h5 ev
    obtain ⟨d', g1, g2, g3⟩ := hf.log
    refine ⟨d ++ d', by rw [g1, h1, List.append_assoc], ?_, ?_, ?_, post_step h5 ev, hf.tdone h6⟩
    · cases hp' : (Auth.run cfg y evs).proxied with
      | true =>
        rw [sentToTarget_append, fromClient_append, h4 hp', (g2 hp').1]
        exact List.prefix_rfl
      | false =>
        rw [sentToTarget_append, fromClient_append, (g3 hp').1, List.append_nil]
        exact h2.trans (List.prefix_append _ _)
    · cases hp' : (Auth.run cfg y evs).proxied with
      | true => rw [sentToClient_append, fromTarget_append, h3, (g2 hp').2]
      | false => rw [sentToClient_append, fromTarget_append, h3, (g3 hp').2.1, (g3 hp').2.2]
    · intro hp2
      cases hp' : (Auth.run cfg y evs).proxied with
      | true => rw [sentToTarget_append, fromClient_append, h4 hp', (g2 hp').1]
      | false => rw [hf.gone h6 hp'] at hp2; simp at hp2

end Lukko
