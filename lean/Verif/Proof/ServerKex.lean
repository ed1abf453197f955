import Verif.Model.Server
import Verif.Spec.Server
import Verif.Proof.Reject
/-
  What the layers above the key exchange are told, and which kinds of messages it sends.
-/
namespace Lukko
open Spec Model

/-- The application is told exactly when both directions are encrypted. -/
def EncTold (s : Kx) : Prop := s.isEncrypted = s.log.contains .encrypted

structure Tells (s s' : Kx) : Prop where
  log : ∃ ext, s'.log = s.log ++ ext ∧ (∀ p, .sent p ∈ ext → IsTransportMessage p)
  told : EncTold s → EncTold s'
  mono : s.isEncrypted = true → s'.isEncrypted = true
  auth : s'.authenticated = s.authenticated

theorem Tells.rfl' {s : Kx} : Tells s s := ⟨⟨[], by simp, by simp⟩, id, id, rfl⟩

theorem Tells.trans {a b c : Kx} (h : Tells a b) (h' : Tells b c) : Tells a c := by
  obtain ⟨x, e1, d1⟩ := h.log
  obtain ⟨y, e2, d2⟩ := h'.log
  refine ⟨⟨x ++ y, by rw [e2, e1, List.append_assoc], ?_⟩, fun z => h'.told (h.told z), fun z => h'.mono (h.mono z), h'.auth.trans h.auth⟩
  intro p hp
  rcases List.mem_append.mp hp with hp | hp
  · exact d1 p hp
  · exact d2 p hp

/-- The ciphers are left alone. -/
theorem Tells.grow {s s' : Kx} {ext : List Entry} (h : s'.log = s.log ++ ext) (hi : s'.inputEncrypted = s.inputEncrypted)
    (ho : s'.outputEncrypted = s.outputEncrypted) (ha : s'.authenticated = s.authenticated) (hn : .encrypted ∉ ext)
    (hs : ∀ p, .sent p ∈ ext → IsTransportMessage p) : Tells s s' := by
  refine ⟨⟨ext, h, hs⟩, ?_, ?_, ha⟩
  · intro ht
    unfold EncTold at ht ⊢
    have he : s'.isEncrypted = s.isEncrypted := by rw [Kx.isEncrypted, hi, ho]
    rw [h, he, ht]
    have : ext.contains Entry.encrypted = false := by
      rw [Bool.eq_false_iff, Ne, List.contains_iff_mem]
      exact hn
    rw [show (s.log ++ ext).contains Entry.encrypted = (s.log.contains .encrypted || ext.contains .encrypted) from by simp,
      this, Bool.or_false]
  · intro ht
    rw [Kx.isEncrypted, hi, ho]
    exact ht

theorem Tells.same {s s' : Kx} (h : s'.log = s.log) (hi : s'.inputEncrypted = s.inputEncrypted)
    (ho : s'.outputEncrypted = s.outputEncrypted) (ha : s'.authenticated = s.authenticated) : Tells s s' :=
  Tells.grow (ext := []) (by simp [h]) hi ho ha (by simp) (by simp)

theorem Tells.emit {s : Kx} {p : Bytes} (h : IsTransportMessage p) : Tells s (s.emit (.sent p)) :=
  Tells.grow (ext := [.sent p]) rfl rfl rfl rfl (by simp) (by intro q hq; simp at hq; rw [hq]; exact h)

theorem Tells.say {s : Kx} {x : Entry} (h : ∀ p, x ≠ .sent p) (h' : x ≠ .encrypted) : Tells s (s.emit x) :=
  Tells.grow (ext := [x]) rfl rfl rfl rfl (by simp [Ne.symm h']) (by intro q hq; simp at hq; exact absurd hq.symm (h q))

theorem Tells.andThen {s : Kx} {r : KRes} {f : Kx → KRes} (h : Tells s r.1) (hf : ∀ x, Tells x (f x).1) :
    Tells s (r.andThen f).1 := by
  unfold KRes.andThen
  split
  · exact h.trans (hf _)
  · exact h

theorem Tells.sendSer {s : Kx} {p} (h : ∀ ser, p = .ok ser → IsTransportMessage (ser.since 5)) : Tells s (s.sendSer p).1 := by
  unfold Kx.sendSer
  split
  · exact Tells.emit (h _ rfl)
  · exact Tells.rfl'

theorem Tells.sendKexInit {e} {s : Kx} : Tells s (s.sendKexInit e).1 := by
  unfold Kx.sendKexInit
  rw [Bool.cond_eq_ite]
  split
  · exact Tells.rfl'
  · split
    · exact Tells.rfl'
    · rename_i ser hser
      have hp := (makeKexInit_payload hser).1
      simp only
      refine Tells.trans ?_ (Tells.emit ⟨_, _, hp, by decide⟩)
      rw [Bool.cond_eq_ite]
      split
      · exact Tells.grow (ext := [.blocked]) rfl rfl rfl rfl (by simp) (by simp)
      · exact Tells.same rfl rfl rfl rfl

theorem Tells.ensureKexInit {e} {s : Kx} : Tells s (s.ensureKexInit e).1 := by
  unfold Kx.ensureKexInit
  rw [Bool.cond_eq_ite]
  split
  · exact Tells.rfl'
  · exact Tells.sendKexInit

theorem Tells.sendECDHKexInit {e} {s : Kx} : Tells s (s.sendECDHKexInit e).1 := by
  unfold Kx.sendECDHKexInit
  split
  · exact Tells.rfl'
  · rw [Bool.cond_eq_ite]
    split
    · exact Tells.rfl'
    · exact Tells.sendSer fun ser h => ⟨_, _, makeECDHKexInit_payload h, by decide⟩

theorem Tells.deriveKeys {e} {s : Kx} {t hash} : Tells s (s.deriveKeys e t hash).1 := by
  unfold Kx.deriveKeys
  split
  · exact Tells.rfl'
  · exact Tells.grow (ext := [.agreed t]) rfl rfl rfl rfl (by simp) (by simp)

theorem Tells.sendReply {e} {s : Kx} {ceph} : Tells s (s.sendECDHKexInitReply e ceph).1 := by
  unfold Kx.sendECDHKexInitReply
  split
  · exact Tells.rfl'
  · exact Tells.rfl'
  · rw [Bool.cond_eq_ite]
    split
    · exact Tells.rfl'
    · simp only
      split
      · exact Tells.rfl'
      · split
        · exact Tells.rfl'
        · exact Tells.andThen (Tells.sendSer fun ser h => ⟨_, _, makeECDHKexInitReply_payload h, by decide⟩)
            (fun _ => Tells.deriveKeys)

/-- A cipher is installed. -/
theorem Tells.install {s s' : Kx} {ext : List Entry} (h : s'.log = s.log ++ ext)
    (hm : s.isEncrypted = true → s'.isEncrypted = true) (ha : s'.authenticated = s.authenticated)
    (hn : ext.contains .encrypted = (!s.isEncrypted && s'.isEncrypted))
    (hs : ∀ p, .sent p ∈ ext → IsTransportMessage p) : Tells s s' := by
  refine ⟨⟨ext, h, hs⟩, ?_, hm, ha⟩
  intro ht
  unfold EncTold at ht ⊢
  have hc : (s.log ++ ext).contains Entry.encrypted = (s.log.contains .encrypted || ext.contains .encrypted) := by
    simp
  rw [h, hc, hn, ← ht]
  cases h1 : s.isEncrypted with
  | false => simp
  | true => rw [hm h1]; rfl

theorem Tells.sendNewKeys {s : Kx} : Tells s s.sendNewKeys.1 := by
  unfold Kx.sendNewKeys
  rw [Bool.cond_eq_ite]
  split
  · exact Tells.rfl'
  · simp only
    split
    · exact Tells.grow (ext := [.sent [21]]) rfl rfl rfl rfl (by simp) (by
        intro p hp; simp at hp; exact ⟨21, [], hp, by decide⟩)
    · simp only [Kx.emit, Bool.cond_eq_ite, Kx.isEncrypted]
      have h21 : IsTransportMessage [MSG_NEWKEYS] := ⟨21, [], rfl, by decide⟩
      split <;> split <;>
        refine Tells.install (by simp only [List.append_assoc]; rfl) (by simp_all) rfl ?_ ?_
      all_goals first
        | (intro p hp; simp at hp; rw [hp]; exact h21)
        | simp_all [Kx.isEncrypted]
        | skip
      all_goals (cases hi : s.inputEncrypted <;> cases ho : s.outputEncrypted <;> simp_all)

theorem Tells.handleReply {e} {s : Kx} {body} : Tells s (s.handleECDHKexInitReply e body).1 := by
  unfold Kx.handleECDHKexInitReply
  simp only [Bool.cond_eq_ite]
  split
  · exact Tells.rfl'
  split
  · exact Tells.rfl'
  split
  · exact Tells.rfl'
  · exact Tells.rfl'
  · exact Tells.rfl'
  · split
    · exact Tells.rfl'
    split
    · exact Tells.rfl'
    · split
      · exact Tells.rfl'
      · exact Tells.andThen Tells.deriveKeys fun _ => Tells.sendNewKeys

theorem Tells.ite {s a b : Kx} {c : Prop} [Decidable c] (h : c → Tells s a) (h' : ¬ c → Tells s b) : Tells s (if c then a else b) := by
  split
  · exact h ‹_›
  · exact h' ‹_›

theorem Tells.handleNewKeys {s : Kx} : Tells s s.handleNewKeys.1 := by
  unfold Kx.handleNewKeys
  simp only [Bool.cond_eq_ite]
  split
  · exact Tells.rfl'
  split
  · exact Tells.same rfl rfl rfl rfl
  split
  · exact Tells.same rfl rfl rfl rfl
  · simp only [Kx.emit, Kx.isEncrypted]
    refine Tells.ite (fun hc => ?_) (fun hc => ?_)
    · refine Tells.install (by simp only [List.append_assoc]; rfl) (by simp_all) rfl ?_ (by simp)
      cases hi : s.inputEncrypted <;> cases ho : s.outputEncrypted <;> simp_all
    · refine Tells.install (by simp only [List.append_assoc]; rfl) (by simp_all) rfl ?_ (by simp)
      cases hi : s.inputEncrypted <;> cases ho : s.outputEncrypted <;> simp_all

theorem Tells.handleKexInit₂ {e} {s : Kx} {p neg} : Tells s (s.handleKexInit₂ e p neg).1 := by
  unfold Kx.handleKexInit₂
  rw [Bool.cond_eq_ite]
  split
  · exact Tells.rfl'
  split
  · split
    · exact Tells.same rfl rfl rfl rfl
    · refine Tells.trans ?_ (Tells.andThen Tells.ensureKexInit fun x => ?_)
      · exact Tells.same rfl rfl rfl rfl
      · exact Tells.same rfl rfl rfl rfl
  · exact Tells.andThen Tells.ensureKexInit fun x => Tells.sendECDHKexInit

theorem Tells.handleKexInit {e} {s : Kx} {body} : Tells s (s.handleKexInit e body).1 := by
  unfold Kx.handleKexInit
  simp only
  rw [Bool.cond_eq_ite]
  split
  · exact Tells.rfl'
  split
  · exact Tells.rfl'
  · split
    · exact Tells.same rfl rfl rfl rfl
    · exact Tells.trans (b := { s with
            flags := { s.flags with kexinitReceived := true }, peerKexinit := body, encC2S := _, encS2C := _, macC2S := _,
            macS2C := _, kex := _, kexes := _, peerWantsExtInfo := _, peerWantsStrict := _, inReset := _,
            outReset := _ }) (Tells.same rfl rfl rfl rfl) Tells.handleKexInit₂

theorem Tells.handleECDHKexInit {e} {s : Kx} {body} : Tells s (s.handleECDHKexInit e body).1 := by
  unfold Kx.handleECDHKexInit
  simp only [Bool.cond_eq_ite]
  split
  · exact Tells.rfl'
  split
  · exact Tells.rfl'
  split
  · exact Tells.rfl'
  · refine Tells.andThen (Tells.andThen Tells.sendReply fun _ => Tells.sendNewKeys) fun b => ?_
    split
    · exact Tells.sendSer fun ser h => ⟨7, _, makeExtInfo_payload h, by decide⟩
    · exact Tells.rfl'

theorem Tells.handlePacket₂ {e} {s : Kx} {msg body claim} : Tells s (s.handlePacket₂ e msg body claim).1 := by
  unfold Kx.handlePacket₂
  split
  · exact Tells.rfl'
  · exact Tells.rfl'
  · unfold Kx.dispatch
    split
    · split <;> exact Tells.rfl'
    split
    · exact Tells.rfl'
    split
    · exact Tells.rfl'
    split
    · exact Tells.handleKexInit
    split
    · exact Tells.handleNewKeys
    split
    · exact Tells.handleECDHKexInit
    split
    · exact Tells.handleReply
    · exact Tells.sendSer fun ser h => ⟨3, _, unimplemented_exact h, by decide⟩

theorem Tells.handlePacket {e} {s : Kx} {msg body claim} : Tells s (s.handlePacket e msg body claim).1 := by
  unfold Kx.handlePacket
  simp only [Bool.cond_eq_ite]
  split
  · exact Tells.handlePacket₂
  split
  · exact Tells.trans (b := { s with firstPacketWasKexinit := s.firstPacketWasKexinit && msg == MSG_KEXINIT })
      (Tells.same rfl rfl rfl rfl) Tells.handlePacket₂
  split
  · split
    · exact Tells.same rfl rfl rfl rfl
    · exact Tells.trans (b := { s with ignoreNextKexPacket := false }) (Tells.same rfl rfl rfl rfl) Tells.handlePacket₂
  split
  · exact Tells.rfl'
  · exact Tells.handlePacket₂

theorem Tells.finish {s : Kx} {r : KRes} (h : Tells s r.1) : Tells s (KxSys.finish r).kx := by
  obtain ⟨a, x⟩ := r
  unfold KxSys.finish
  cases x with
  | none => exact h
  | some x =>
    cases x with
    | disconnect => exact h.trans (Tells.emit ⟨1, [], rfl, by decide⟩)
    | closed => exact h
    | assertFailed => exact h

/-- A packet. -/
theorem packet_tells {e} {y : KxSys} {raw claim} (hs : y.stop = none) (hv : y.kx.versionExchanged = true) :
    Tells (y.kx.emit (.recv raw)) (y.step e (.packet raw claim)).kx := by
  obtain ⟨s, stop⟩ := y
  cases hs
  simp only at hv
  simp only [KxSys.step, hv, cond_true]
  apply Tells.finish
  unfold Kx.handleRawPacket
  simp only
  split
  · exact Tells.rfl'
  · exact Tells.handlePacket

/-- Any event but `SetAuthenticated`. -/
theorem step_tells {e} {y : KxSys} {ev} (h : ev ≠ .authenticated) : Tells y.kx (y.step e ev).kx := by
  obtain ⟨s, stop⟩ := y
  cases stop with
  | some x => exact .rfl'
  | none =>
    cases ev with
    | packet raw claim =>
      cases hv : s.versionExchanged with
      | false => simp only [KxSys.step, hv, cond_false]; exact .rfl'
      | true => exact (Tells.say (x := .recv raw) (by simp) (by simp)).trans (packet_tells (y := ⟨s, none⟩) rfl hv)
    | version v =>
      simp only [KxSys.step]
      cases s.versionExchanged with
      | true => exact .rfl'
      | false =>
        refine Tells.finish ?_
        unfold Kx.onVersion
        simp only [Bool.cond_eq_ite]
        have h1 : Tells s (Kx.emit { s with peerVersion := v, versionExchanged := true } (.version v)) :=
          Tells.grow (ext := [.version v]) rfl rfl rfl rfl (by simp) (by simp)
        split
        · exact h1.trans Tells.sendKexInit
        · exact h1
    | authenticated => exact absurd rfl h
    | rekeyTimer =>
      simp only [KxSys.step]
      cases s.authenticated with
      | false => exact .rfl'
      | true =>
        refine Tells.finish ?_
        unfold Kx.initiateRekey
        simp only [Bool.cond_eq_ite]
        split
        · exact .rfl'
        · split
          · exact .rfl'
          · exact Tells.sendKexInit
    | writable more =>
      simp only [KxSys.step]
      unfold Kx.onBufferedWrite
      simp only [Bool.cond_eq_ite]
      have h1 : Tells s (if (s.writeBlocked && !Kx.isRekeying { s with writeBlocked := false }) = true
          then Kx.emit { s with writeBlocked := false } .unblocked else { s with writeBlocked := false }) := by
        split
        · exact Tells.grow (ext := [.unblocked]) rfl rfl rfl rfl (by simp) (by simp)
        · exact Tells.same rfl rfl rfl rfl
      have h2 : ∀ m : Kx, Tells s m → Tells s (if more = true then
          if (!Kx.isRekeying { m with writeBlocked := true }) = true
          then Kx.emit { m with writeBlocked := true } .blocked else { m with writeBlocked := true } else m) := by
        intro m hm
        split
        · refine hm.trans ?_
          split
          · exact Tells.grow (ext := [.blocked]) rfl rfl rfl rfl (by simp) (by simp)
          · exact Tells.same rfl rfl rfl rfl
        · exact hm
      exact h2 _ h1

/-- `SetAuthenticated`. -/
theorem step_authenticated {e} {y : KxSys} (hs : y.stop = none) (h1 : y.kx.isEncrypted = true) (h2 : y.kx.authenticated = false) :
    y.step e .authenticated = { y with kx := { y.kx with authenticated := true } } := by
  obtain ⟨s, stop⟩ := y
  cases hs
  simp only at h1 h2
  simp only [KxSys.step, h1, h2, Bool.not_false, Bool.and_self, cond_true, Kx.setAuthenticated, Bool.not_true, Bool.or_self, cond_false]
  rfl

end Lukko
