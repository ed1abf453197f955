import Verif.Model.Transport
import Verif.Proof.KexReset
import Verif.Proof.KexPhase
import Verif.Proof.InputInv
import Verif.Proof.Output
/-
  How the parts of a connection fit together.
-/
namespace Lukko
open Spec Model

variable {σ : Type}

/-! ### What an event adds to the history of the key exchange -/

/-- Nothing is taken from the network, the counters are left alone. -/
structure Steady (s s' : Kx) : Prop where
  log : ∃ ext, s'.log = s.log ++ ext ∧ ∀ p, .recv p ∉ ext
  inR : s'.inReset = s.inReset
  outR : s'.outReset = s.outReset

theorem norecv_of_received {ext : List Entry} (h : received ext = []) : ∀ p, .recv p ∉ ext := by
  intro p hp
  have : p ∈ received ext := by simp only [received, List.mem_filterMap]; exact ⟨_, hp, rfl⟩
  rw [h] at this
  cases this

theorem received_append (a b : List Entry) : received (a ++ b) = received a ++ received b := by
  simp [received]

theorem Frame.still {s s' : Kx} (h : Frame s s') : Steady s s' := by
  obtain ⟨ext, h1, h2⟩ := h.log
  refine ⟨⟨ext, h1, norecv_of_received ?_⟩, h.reset.1, h.reset.2⟩
  rw [h1, received_append] at h2
  exact List.append_right_eq_self.mp h2

theorem Steady.rfl' {s : Kx} : Steady s s := ⟨⟨[], by simp⟩, rfl, rfl⟩

theorem Steady.trans {a b c : Kx} (h : Steady a b) (h' : Steady b c) : Steady a c := by
  obtain ⟨⟨x, e1, e2⟩, h1, h2⟩ := h
  obtain ⟨⟨x', e1', e2'⟩, h1', h2'⟩ := h'
  refine ⟨⟨x ++ x', by simp [e1', e1], ?_⟩, h1'.trans h1, h2'.trans h2⟩
  intro p hp
  rcases List.mem_append.mp hp with hp | hp
  · exact e2 p hp
  · exact e2' p hp

theorem Steady.andThen {s : Kx} {r : KRes} {f : Kx → KRes} (h : Steady s r.1) (hf : ∀ x, Steady x (f x).1) :
    Steady s (r.andThen f).1 := by
  unfold KRes.andThen
  split
  · exact h.trans (hf _)
  · exact h

theorem Steady.of_eq {s a b : Kx} (h : Steady a b) (hl : a.log = s.log) (hi : a.inReset = s.inReset) (ho : a.outReset = s.outReset) :
    Steady s b := by
  obtain ⟨ext, h1, h2⟩ := h.log
  exact ⟨⟨ext, by rw [h1, hl], h2⟩, h.inR.trans hi, h.outR.trans ho⟩

theorem Steady.handleKexInit₂ {e} {s : Kx} {p neg} : Steady s (s.handleKexInit₂ e p neg).1 := by
  unfold Kx.handleKexInit₂
  cases s.peerWantsStrict && !s.firstPacketWasKexinit with
  | true => exact .rfl'
  | false =>
    simp only [cond_false]
    split
    · split
      · exact Steady.of_eq .rfl' rfl rfl rfl
      · refine Steady.andThen (Steady.of_eq (Frame.ensureKexInit (e := e)).still rfl rfl rfl) ?_
        intro x
        exact Steady.of_eq .rfl' rfl rfl rfl
    · exact Steady.andThen (Frame.ensureKexInit (e := e)).still fun x => (Frame.sendECDHKexInit (e := e)).still

/-- Like `Steady`, but the counters may be reset from now on, before there are any ciphers. -/
structure Moves (s s' : Kx) : Prop where
  log : ∃ ext, s'.log = s.log ++ ext ∧ ∀ p, .recv p ∉ ext
  reset : (s'.inReset = s.inReset ∧ s'.outReset = s.outReset) ∨
    (s'.inReset = true ∧ s'.outReset = true ∧ s.inputEncrypted = false ∧ s.outputEncrypted = false)

theorem Steady.moves {s s' : Kx} (h : Steady s s') : Moves s s' := ⟨h.log, .inl ⟨h.inR, h.outR⟩⟩

theorem Moves.andStill {a b c : Kx} (h : Moves a b) (h' : Steady b c) : Moves a c := by
  obtain ⟨⟨x, e1, e2⟩, h1⟩ := h
  obtain ⟨⟨x', e1', e2'⟩, h1', h2'⟩ := h'
  refine ⟨⟨x ++ x', by simp [e1', e1], ?_⟩, ?_⟩
  · intro p hp
    rcases List.mem_append.mp hp with hp | hp
    · exact e2 p hp
    · exact e2' p hp
  · rw [h1', h2']; exact h1

/-- Before NEWKEYS of the first exchange there are no ciphers. -/
structure Calmed (s : Kx) : Prop where
  inR : s.inReset = s.peerWantsStrict
  outR : s.outReset = s.peerWantsStrict
  plain : s.flags.newkeysSent = false → s.isEncrypted = false → s.inputEncrypted = false ∧ s.outputEncrypted = false

theorem Moves.handleKexInit {e} {s : Kx} {body} (h : Calmed s) : Moves s (s.handleKexInit e body).1 := by
  unfold Kx.handleKexInit
  simp only
  cases hb : s.flags.kexinitReceived || s.flags.newkeysSent || s.flags.newkeysReceived with
  | true => exact Steady.rfl'.moves
  | false =>
    simp only [cond_false]
    split
    · exact Steady.rfl'.moves
    · split
      · exact ⟨⟨[], by simp⟩, .inl ⟨rfl, rfl⟩⟩
      · refine Moves.andStill (b := { s with
            flags := { s.flags with kexinitReceived := true }, peerKexinit := body, encC2S := _, encS2C := _, macC2S := _,
            macS2C := _, kex := _, kexes := _, peerWantsExtInfo := _, peerWantsStrict := _, inReset := _,
            outReset := _ }) ?_ Steady.handleKexInit₂
        refine ⟨⟨[], by simp⟩, ?_⟩
        simp only
        cases hi : s.isEncrypted with
        | true =>
          simp only [Bool.not_true, cond_false]
          rw [h.inR, h.outR]
          left; simp
        | false =>
          simp only [Bool.not_false, cond_true]
          obtain ⟨h1, h2⟩ := h.plain (by simp only [Bool.or_eq_false_iff] at hb; exact hb.1.2) hi
          rw [h1, h2]
          generalize stringListContains _ _ = b
          cases b
          · left; simp
          · right; simp

theorem Moves.handlePacket₂ {e} {s : Kx} {msg body claim} (h : Calmed s) : Moves s (s.handlePacket₂ e msg body claim).1 := by
  by_cases hm : msg ≠ 20 ∨ claim ≠ .unclaimed
  · exact (Frame.handlePacket₂ hm).still.moves
  · have h1 : msg = 20 := by
      apply Classical.byContradiction; intro h1; exact hm (.inl h1)
    have h2 : claim = .unclaimed := by
      apply Classical.byContradiction; intro h1; exact hm (.inr h1)
    subst h1 h2
    rw [handlePacket₂_20]
    exact Moves.handleKexInit h

theorem Moves.of_eq {s a b : Kx} (h : Moves a b) (hl : a.log = s.log) (hi : a.inReset = s.inReset) (ho : a.outReset = s.outReset)
    (hie : a.inputEncrypted = s.inputEncrypted) (hoe : a.outputEncrypted = s.outputEncrypted) : Moves s b := by
  obtain ⟨ext, h1, h2⟩ := h.log
  refine ⟨⟨ext, by rw [h1, hl], h2⟩, ?_⟩
  have := h.reset
  rw [hi, ho, hie, hoe] at this
  exact this

theorem Moves.handlePacket {e} {s : Kx} {msg body claim} (h : Calmed s) : Moves s (s.handlePacket e msg body claim).1 := by
  unfold Kx.handlePacket
  simp only [Bool.cond_eq_ite]
  split
  · exact Moves.handlePacket₂ h
  · split
    · exact Moves.of_eq (Moves.handlePacket₂ ⟨h.inR, h.outR, h.plain⟩) rfl rfl rfl rfl rfl
    · split
      · split
        · exact ⟨⟨[], by simp⟩, .inl ⟨rfl, rfl⟩⟩
        · exact Moves.of_eq (Moves.handlePacket₂ ⟨h.inR, h.outR, h.plain⟩) rfl rfl rfl rfl rfl
      · split
        · exact Steady.rfl'.moves
        · exact Moves.handlePacket₂ h

theorem Moves.finish {s : Kx} {r : KRes} (h : Moves s r.1) : Moves s (KxSys.finish r).kx := by
  obtain ⟨a, x⟩ := r
  unfold KxSys.finish
  cases x with
  | none => exact h
  | some x =>
    cases x with
    | disconnect => exact h.andStill ⟨⟨[.sent [MSG_DISCONNECT]], rfl, by simp⟩, rfl, rfl⟩
    | closed => exact h
    | assertFailed => exact h

/-- A packet. -/
theorem packet_moves {e} {y : KxSys} {raw claim} (h : Calmed y.kx) (hs : y.stop = none) (hv : y.kx.versionExchanged = true) :
    ∃ ext, (y.step e (.packet raw claim)).kx.log = y.kx.log ++ .recv raw :: ext ∧ (∀ p, .recv p ∉ ext) ∧
      (((y.step e (.packet raw claim)).kx.inReset = y.kx.inReset ∧ (y.step e (.packet raw claim)).kx.outReset = y.kx.outReset) ∨
       ((y.step e (.packet raw claim)).kx.inReset = true ∧ (y.step e (.packet raw claim)).kx.outReset = true ∧
         y.kx.inputEncrypted = false ∧ y.kx.outputEncrypted = false)) := by
  obtain ⟨s, stop⟩ := y
  cases hs
  simp only [KxSys.step]
  rw [hv, cond_true]
  have hm : Moves (s.emit (.recv raw)) (KxSys.finish (s.handleRawPacket e raw claim)).kx := by
    apply Moves.finish
    unfold Kx.handleRawPacket
    cases raw with
    | nil => exact Steady.rfl'.moves
    | cons msg body => exact Moves.handlePacket ⟨h.inR, h.outR, h.plain⟩
  obtain ⟨ext, h1, h2⟩ := hm.log
  exact ⟨ext, by rw [h1]; simp [Kx.emit], h2, hm.reset⟩

/-- Other events. -/
theorem other_still {e} {y : KxSys} {ev} (h : ∀ raw claim, ev ≠ .packet raw claim) : Steady y.kx (y.step e ev).kx := by
  obtain ⟨s, stop⟩ := y
  cases stop with
  | some x => exact .rfl'
  | none =>
    have fin : ∀ {r : KRes}, Steady s r.1 → Steady s (KxSys.finish r).kx := by
      intro r h
      obtain ⟨a, x⟩ := r
      unfold KxSys.finish
      cases x with
      | none => exact h
      | some x =>
        cases x with
        | disconnect => exact h.trans ⟨⟨[.sent [MSG_DISCONNECT]], rfl, by simp⟩, rfl, rfl⟩
        | closed => exact h
        | assertFailed => exact h
    cases ev with
    | packet raw claim => exact absurd rfl (h raw claim)
    | version v =>
      simp only [KxSys.step]
      cases s.versionExchanged with
      | true => exact .rfl'
      | false =>
        apply fin
        unfold Kx.onVersion
        simp only [Bool.cond_eq_ite]
        have h1 : Steady s (Kx.emit { s with peerVersion := v, versionExchanged := true } (.version v)) :=
          ⟨⟨[.version v], rfl, by simp⟩, rfl, rfl⟩
        split
        · exact h1.trans (Frame.sendKexInit (e := e)).still
        · exact h1
    | authenticated =>
      simp only [KxSys.step]
      cases s.isEncrypted && !s.authenticated with
      | false => exact .rfl'
      | true =>
        apply fin
        unfold Kx.setAuthenticated
        simp only [Bool.cond_eq_ite]
        split
        · exact .rfl'
        · exact Steady.of_eq .rfl' rfl rfl rfl
    | rekeyTimer =>
      simp only [KxSys.step]
      cases s.authenticated with
      | false => exact .rfl'
      | true =>
        apply fin
        unfold Kx.initiateRekey
        simp only [Bool.cond_eq_ite]
        split
        · exact .rfl'
        · split
          · exact .rfl'
          · exact (Frame.sendKexInit (e := e)).still
    | writable more =>
      simp only [KxSys.step]
      unfold Kx.onBufferedWrite
      simp only [Bool.cond_eq_ite]
      have h1 : Steady s (if (s.writeBlocked && !Kx.isRekeying { s with writeBlocked := false }) = true
          then Kx.emit { s with writeBlocked := false } .unblocked else { s with writeBlocked := false }) := by
        split
        · exact ⟨⟨[.unblocked], rfl, by simp⟩, rfl, rfl⟩
        · exact ⟨⟨[], by simp, by simp⟩, rfl, rfl⟩
      have h2 : ∀ m : Kx, Steady s m → Steady s (if more = true then
          if (!Kx.isRekeying { m with writeBlocked := true }) = true
          then Kx.emit { m with writeBlocked := true } .blocked else { m with writeBlocked := true } else m) := by
        intro m hm
        split
        · refine hm.trans ?_
          split
          · exact ⟨⟨[.blocked], rfl, by simp⟩, rfl, rfl⟩
          · exact ⟨⟨[], by simp, by simp⟩, rfl, rfl⟩
        · exact hm
      exact h2 _ h1

/-- NEWKEYS is answered by installing a cipher, or ends the connection. -/
theorem newkeys_installs {e} {y : KxSys} {body claim} (hs : y.stop = none) (hv : y.kx.versionExchanged = true)
    (hc : ClaimOk (21 :: body) claim) (hn : (y.step e (.packet (21 :: body) claim)).stop = none) :
    ∃ enc mac keys ext, (y.step e (.packet (21 :: body) claim)).kx.log =
      y.kx.log ++ .recv (21 :: body) :: .installIn enc mac keys :: ext := by
  obtain ⟨s, stop⟩ := y
  cases hs
  simp only [KxSys.step] at hn ⊢
  simp only at hv
  rw [hv, cond_true] at hn ⊢
  rw [finish_stop] at hn
  rw [finish_kx hn]
  have hcl : claim = .unclaimed := by simpa [ClaimOk] using hc
  subst hcl
  have key : ∀ s1 : Kx, s1.log = s.log ++ [.recv (21 :: body)] → s1.handleNewKeys.2 = none →
      ∃ enc mac keys ext, s1.handleNewKeys.1.log = s.log ++ .recv (21 :: body) :: .installIn enc mac keys :: ext := by
    intro s1 hl h
    unfold Kx.handleNewKeys at h ⊢
    simp only [Bool.cond_eq_ite] at h ⊢
    split at h
    · cases h
    · rename_i h1
      rw [if_neg h1]
      split at h
      · cases h
      · rename_i h2
        rw [if_neg h2]
        split at h
        · cases h
        · refine ⟨findNegotiatedAlgorithm s1.role .incoming allEncryptionAlgorithms s1.encC2S s1.encS2C,
            findNegotiatedAlgorithm s1.role .incoming allMacAlgorithms s1.macC2S s1.macS2C, s1.ks.newKeysIn, ?_⟩
          split
          · exact ⟨[.encrypted], by simp [Kx.emit, hl]⟩
          · exact ⟨[], by simp [Kx.emit, hl]⟩
  have hp2 : ∀ s1 : Kx, s1.handlePacket₂ e 21 body .unclaimed = s1.handleNewKeys := fun _ => rfl
  unfold Kx.handleRawPacket Kx.handlePacket at hn ⊢
  simp only [Bool.cond_eq_ite] at hn ⊢
  split at hn
  · rename_i h1
    rw [if_pos h1]
    rw [hp2] at hn ⊢
    exact key _ rfl hn
  · rename_i h1
    rw [if_neg h1]
    split at hn
    · rename_i h2
      rw [if_pos h2]
      rw [hp2] at hn ⊢
      exact key _ rfl hn
    · rename_i h2
      rw [if_neg h2]
      split at hn
      · rename_i h3
        rw [if_pos h3]
        split at hn
        · rename_i h4
          exact absurd h4 (by decide)
        · rename_i h4
          rw [if_neg h4]
          rw [hp2] at hn ⊢
          exact key _ rfl hn
      · rename_i h3
        rw [if_neg h3]
        split at hn
        · cases hn
        · rename_i h4
          rw [if_neg h4]
          rw [hp2] at hn ⊢
          exact key _ rfl hn

end Lukko
