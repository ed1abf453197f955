import Verif.Proof.KexStrict
import Verif.Proof.Lists
/-
  When the counters of packets are reset (strict key exchange).
-/
namespace Lukko
open Spec Model

/-- These fields are left alone. -/
structure KeepsReset (s s' : Kx) : Prop where
  strict : s'.peerWantsStrict = s.peerWantsStrict
  inR : s'.inReset = s.inReset
  outR : s'.outReset = s.outReset
  role : s'.role = s.role

theorem Frame.keeps {s s' : Kx} (h : Frame s s') : KeepsReset s s' := ⟨h.strict, h.reset.1, h.reset.2, h.role⟩

theorem KeepsReset.trans {a b c : Kx} (h : KeepsReset a b) (h' : KeepsReset b c) : KeepsReset a c :=
  ⟨h'.strict.trans h.strict, h'.inR.trans h.inR, h'.outR.trans h.outR, h'.role.trans h.role⟩

theorem handleKexInit₂_keeps {e} {s : Kx} {p neg} (h : (s.handleKexInit₂ e p neg).2 = none) :
    KeepsReset s (s.handleKexInit₂ e p neg).1 := by
  unfold Kx.handleKexInit₂ at h ⊢
  cases hb : s.peerWantsStrict && !s.firstPacketWasKexinit with
  | true => rw [hb] at h; simp at h
  | false =>
    rw [hb] at h
    simp only [cond_false] at h ⊢
    split at h
    · split at h
      · simp at h
      · rename_i hk alg hch
        obtain ⟨h1, h2⟩ := andThen_none h
        rw [h2]
        have hf := (Frame.ensureKexInit (e := e) (s := { s with hostKey := some hk, hostKeyAlgorithm := alg })).keeps
        exact ⟨hf.strict, hf.inR, hf.outR, hf.role⟩
    · obtain ⟨h1, h2⟩ := andThen_none h
      rw [h2]
      exact ((Frame.ensureKexInit (e := e) (s := s)).trans (Frame.sendECDHKexInit (e := e))).keeps

theorem handleKexInit_reset {e} {s : Kx} {body} (h : (s.handleKexInit e body).2 = none) :
    ∃ p strict, parseKexInit.parse body = some p ∧
      strict = (bif !s.isEncrypted then stringListContains p.kex (strictMarker s.role) else s.peerWantsStrict) ∧
      (s.handleKexInit e body).1.peerWantsStrict = strict ∧
      (s.handleKexInit e body).1.inReset = (s.inReset || strict) ∧
      (s.handleKexInit e body).1.outReset = (s.outReset || strict) := by
  have hm : (if s.role = Role.server then ascii "kex-strict-c-v00@openssh.com" else ascii "kex-strict-s-v00@openssh.com") = strictMarker s.role := by
    cases s.role <;> rfl
  unfold Kx.handleKexInit at h ⊢
  simp only at h ⊢
  cases hb : s.flags.kexinitReceived || s.flags.newkeysSent || s.flags.newkeysReceived with
  | true => rw [hb] at h; simp at h
  | false =>
    rw [hb] at h
    simp only [cond_false] at h ⊢
    split at h
    · simp at h
    · rename_i p hp
      split at h
      · simp at h
      · have hk := handleKexInit₂_keeps h
        exact ⟨p, _, hp, rfl, hk.strict.trans (by rw [← hm]), hk.inR.trans (by rw [← hm]), hk.outR.trans (by rw [← hm])⟩

/-- The first KEXINIT decides. -/
def ResetInv (s : Kx) : Prop :=
  ((∀ q ∈ received s.log, isMsg 20 q = false) ∧ s.peerWantsStrict = false ∧ s.inReset = false ∧ s.outReset = false) ∨
  ∃ l k p rest, received s.log = l ++ (20 :: k) :: rest ∧ (∀ q ∈ l, isMsg 20 q = false) ∧ parseKexInit.parse k = some p ∧
    s.peerWantsStrict = stringListContains p.kex (strictMarker s.role) ∧ s.inReset = s.peerWantsStrict ∧ s.outReset = s.peerWantsStrict

theorem ResetInv.keep {s s' : Kx} (h : ResetInv s) (hk : KeepsReset s s') (hr : received s'.log = received s.log) : ResetInv s' := by
  unfold ResetInv at h ⊢
  rw [hr, hk.strict, hk.inR, hk.outR, hk.role]
  exact h

theorem ResetInv.more {s s' : Kx} {q : Bytes} (h : ResetInv s) (hk : KeepsReset s s') (hr : received s'.log = received s.log ++ [q])
    (hq : isMsg 20 q = false) : ResetInv s' := by
  unfold ResetInv at h ⊢
  rw [hr, hk.strict, hk.inR, hk.outR, hk.role]
  rcases h with ⟨h1, h2⟩ | ⟨l, k, p, rest, h1, h2⟩
  · refine .inl ⟨?_, h2⟩
    intro x hx
    rcases List.mem_append.mp hx with hx | hx
    · exact h1 x hx
    · rw [List.mem_singleton.mp hx]; exact hq
  · exact .inr ⟨l, k, p, rest ++ [q], by rw [h1]; simp, h2⟩

/-- Ciphers are installed after KEXINIT. -/
theorem phase_kexRecv : ∀ {log : List Entry} {φ : Phase}, phaseOf log = some φ →
    (φ.kexRecv = true ∨ hasIn log = true) → ∃ q ∈ received log, isMsg 20 q = true := by
  intro log
  induction log using Aux.snoc_ind with
  | h0 =>
    intro φ h hx
    cases h
    simp [hasIn] at hx
  | h1 log x ih =>
    intro φ h hx
    rw [phaseOf_snoc] at h
    cases hφ : phaseOf log with
    | none => rw [hφ] at h; cases h
    | some ψ =>
      rw [hφ, Option.bind_some] at h
      have grow : (ψ.kexRecv = true ∨ hasIn log = true) → ∃ q ∈ received (log ++ [x]), isMsg 20 q = true := by
        intro h'
        obtain ⟨q, hq, hm⟩ := ih hφ h'
        exact ⟨q, by simp [hq], hm⟩
      rw [hasIn_snoc] at hx
      cases x with
      | recv p =>
        by_cases hp : isMsg 20 p = true
        · exact ⟨p, by simp, hp⟩
        · apply grow
          rcases hx with hx | hx
          · left
            simp only [Phase.next] at h
            simp only [if_neg hp] at h
            split at h
            · cases h
            · split at h
              · split at h <;> (cases h; exact hx)
              · cases h; exact hx
          · right; simpa using hx
      | installIn a b c =>
        apply grow; left
        simp only [Phase.next] at h
        split at h
        · rename_i hc; simp only [Bool.and_eq_true] at hc; exact hc.1.1.1.1.1.2
        · cases h
      | sent p =>
        apply grow
        rcases hx with hx | hx
        · left
          simp only [Phase.next] at h
          split at h
          · cases h; exact hx
          · split at h
            · cases h
            · split at h
              · cases h
              · split at h
                · split at h
                  · cases h; exact hx
                  · cases h
                · split at h
                  · split at h
                    · cases h; exact hx
                    · cases h
                  · cases h; exact hx
        · right; simpa using hx
      | agreed t =>
        apply grow
        rcases hx with hx | hx
        · left
          simp only [Phase.next] at h
          split at h
          · cases h; exact hx
          · cases h
        · right; simpa using hx
      | installOut a b c =>
        apply grow
        rcases hx with hx | hx
        · left
          simp only [Phase.next] at h
          split at h
          · cases h; exact hx
          · cases h
        · right; simpa using hx
      | version v =>
        apply grow
        rcases hx with hx | hx
        · left; cases h; exact hx
        · right; simpa using hx
      | encrypted =>
        apply grow
        rcases hx with hx | hx
        · left; cases h; exact hx
        · right; simpa using hx
      | blocked =>
        apply grow
        rcases hx with hx | hx
        · left; cases h; exact hx
        · right; simpa using hx
      | unblocked =>
        apply grow
        rcases hx with hx | hx
        · left; cases h; exact hx
        · right; simpa using hx

/-- A KEXINIT which is accepted. -/
theorem ResetInv.kexinit {e} {role} {φ} {s s0 : Kx} {body} (h : ResetInv s) (hs : StrictInv e s) (hk : KInv e role φ s)
    (k0 : KeepsReset s s0) (h0 : s0.isEncrypted = s.isEncrypted)
    (hr : received s0.log = received s.log ++ [20 :: body]) (hf : s0.flags.kexinitReceived = s.flags.kexinitReceived)
    (hn : (s0.handleKexInit e body).2 = none) : ResetInv (s0.handleKexInit e body).1 := by
  have hd := handleKexInit_done hn
  obtain ⟨p, strict, h1, h2, h3, h4, h5⟩ := handleKexInit_reset hn
  have hwas : s.flags.kexinitReceived = false := hf ▸ hd.was
  right
  rcases h with ⟨a1, a2, a3, a4⟩ | ⟨l, k, p', rest, b1, b2, b3, b4, b5, b6⟩
  · have hin : s.inputEncrypted = false := by
      cases hi : s.inputEncrypted with
      | false => rfl
      | true =>
        rw [hk.inEnc] at hi
        obtain ⟨q, hq, hm⟩ := phase_kexRecv hk.phase (.inr hi)
        rw [a1 q hq] at hm; cases hm
    have hne : s0.isEncrypted = false := by rw [h0]; simp [Kx.isEncrypted, hin]
    rw [hne] at h2
    simp only [Bool.not_false, cond_true] at h2
    refine ⟨received s.log, body, p, [], by rw [hd.recv, hr], a1, h1, by rw [h3, h2, hd.role], ?_, ?_⟩
    · rw [h4, k0.inR, a3, h3]; rfl
    · rw [h5, k0.outR, a4, h3]; rfl
  · have hin : s.inputEncrypted = true := by
      cases hi : s.inputEncrypted with
      | true => rfl
      | false =>
        have := (hs.before hi hwas).1 (20 :: k) (by rw [b1]; simp)
        cases this
    have hne : s0.isEncrypted = true := by rw [h0]; simp [Kx.isEncrypted, hin, hk.inOut hin]
    rw [hne] at h2
    simp only [Bool.not_true, cond_false] at h2
    rw [k0.strict] at h2
    refine ⟨l, k, p', rest ++ [20 :: body], by rw [hd.recv, hr, b1]; simp, b2, b3, ?_, ?_, ?_⟩
    · rw [h3, h2, b4, hd.role, k0.role]
    · rw [h4, k0.inR, b5, h3, h2]; simp
    · rw [h5, k0.outR, b6, h3, h2]; simp

theorem handleRawPacket_reset {e} {role} {φ} {s : Kx} {raw claim} (h : ResetInv s) (hs : StrictInv e s) (hk : KInv e role φ s)
    (hc : ClaimOk raw claim) (hn : (s.handleRawPacket e raw claim).2 = none) : ResetInv (s.handleRawPacket e raw claim).1 := by
  unfold Kx.handleRawPacket at hn ⊢
  cases raw with
  | nil => simp at hn
  | cons msg body =>
    simp only at hn ⊢
    have main : ∀ {s0 : Kx}, KeepsReset s s0 → s0.isEncrypted = s.isEncrypted → received s0.log = received s.log ++ [msg :: body] →
        s0.flags.kexinitReceived = s.flags.kexinitReceived →
        (s0.handlePacket₂ e msg body claim).2 = none → ResetInv (s0.handlePacket₂ e msg body claim).1 := by
      intro s0 k0 h0 hr hf hn
      by_cases hm : msg = 20
      · subst hm
        have : claim = .unclaimed := by simpa [ClaimOk] using hc
        subst this
        rw [handlePacket₂_20] at hn ⊢
        exact h.kexinit hs hk k0 h0 hr hf hn
      · have hfr := Frame.handlePacket₂ (e := e) (s := s0) (body := body) (claim := claim) (.inl hm)
        obtain ⟨_, _, hl⟩ := hfr.log
        exact h.more (k0.trans hfr.keeps) (hl.trans hr) (by simp [isMsg, hm])
    have hr0 : received (s.emit (.recv (msg :: body))).log = received s.log ++ [msg :: body] := by simp [Kx.emit]
    unfold Kx.handlePacket at hn ⊢
    cases hin : s.inputEncrypted with
    | true =>
      have hin' : (s.emit (.recv (msg :: body))).inputEncrypted = true := hin
      rw [hin', cond_true] at hn ⊢
      exact main ⟨rfl, rfl, rfl, rfl⟩ rfl hr0 rfl hn
    | false =>
      have hin' : (s.emit (.recv (msg :: body))).inputEncrypted = false := hin
      rw [hin', cond_false] at hn ⊢
      cases hk : s.flags.kexinitReceived with
      | false =>
        have hk' : (s.emit (.recv (msg :: body))).flags.kexinitReceived = false := hk
        rw [hk', Bool.not_false, cond_true] at hn ⊢
        exact main ⟨rfl, rfl, rfl, rfl⟩ (by simp [Kx.isEncrypted, hin, Kx.emit]) hr0 rfl hn
      | true =>
        have hk' : (s.emit (.recv (msg :: body))).flags.kexinitReceived = true := hk
        rw [hk', Bool.not_true, cond_false] at hn ⊢
        cases hi : s.ignoreNextKexPacket with
        | true =>
          have hi' : (s.emit (.recv (msg :: body))).ignoreNextKexPacket = true := hi
          rw [hi', cond_true] at hn ⊢
          cases hkx : isKex msg with
          | true =>
            simp only [cond_true]
            refine h.more ⟨rfl, rfl, rfl, rfl⟩ hr0 ?_
            have : msg ≠ 20 := by rintro rfl; simp [isKex] at hkx
            simp [isMsg, this]
          | false =>
            rw [hkx] at hn
            simp only [cond_false] at hn ⊢
            exact main ⟨rfl, rfl, rfl, rfl⟩ (by simp [Kx.isEncrypted, hin, Kx.emit]) hr0 rfl hn
        | false =>
          have hi' : (s.emit (.recv (msg :: body))).ignoreNextKexPacket = false := hi
          rw [hi', cond_false] at hn ⊢
          simp only [Bool.cond_eq_ite] at hn ⊢
          split at hn
          · simp at hn
          · rename_i hx
            rw [if_neg hx]
            exact main ⟨rfl, rfl, rfl, rfl⟩ rfl hr0 rfl hn

theorem onBufferedWrite_keeps {s : Kx} {more} : KeepsReset s (s.onBufferedWrite more) ∧ received (s.onBufferedWrite more).log = received s.log := by
  unfold Kx.onBufferedWrite
  simp only [Bool.cond_eq_ite]
  split <;> split <;> (try split) <;> exact ⟨⟨rfl, rfl, rfl, rfl⟩, by simp [Kx.emit, received]⟩

theorem step_reset {e} {role} {φ} {y : KxSys} {ev} (h : ResetInv y.kx) (hs : StrictInv e y.kx) (hk : KInv e role φ y.kx)
    (hev : EventOk ev) (hn : (y.step e ev).stop = none) : ResetInv (y.step e ev).kx := by
  obtain ⟨s, stop⟩ := y
  cases stop with
  | some x => simp [KxSys.step] at hn
  | none =>
    unfold KxSys.step at hn ⊢
    simp only at h hs hk hn ⊢
    have hfr {s s' : Kx} (h : ResetInv s) (hf : Frame s s') : ResetInv s' := by
      obtain ⟨_, _, hl⟩ := hf.log
      exact h.keep hf.keeps hl
    cases ev with
    | version v =>
      simp only at hn ⊢
      cases hv : s.versionExchanged with
      | true => exact h
      | false =>
        rw [hv] at hn
        simp only [cond_false, finish_stop] at hn ⊢
        rw [finish_kx hn]
        unfold Kx.onVersion
        have h0 : ResetInv ({ s with peerVersion := v, versionExchanged := true }.emit (.version v)) :=
          h.keep ⟨rfl, rfl, rfl, rfl⟩ (by simp [Kx.emit])
        simp only [Bool.cond_eq_ite]
        split
        · exact hfr h0 Frame.sendKexInit
        · exact h0
    | packet raw claim =>
      simp only at hn ⊢
      cases hv : s.versionExchanged with
      | false => exact h
      | true =>
        rw [hv] at hn
        simp only [cond_true, finish_stop] at hn ⊢
        rw [finish_kx hn]
        exact handleRawPacket_reset h hs hk hev hn
    | authenticated =>
      simp only at hn ⊢
      cases hv : s.isEncrypted && !s.authenticated with
      | false => exact h
      | true =>
        rw [hv] at hn
        simp only [cond_true, finish_stop] at hn ⊢
        rw [finish_kx hn]
        unfold Kx.setAuthenticated
        simp only [Bool.cond_eq_ite]
        split
        · exact h
        · exact h.keep ⟨rfl, rfl, rfl, rfl⟩ rfl
    | rekeyTimer =>
      simp only at hn ⊢
      cases hv : s.authenticated with
      | false => exact h
      | true =>
        rw [hv] at hn
        simp only [cond_true, finish_stop] at hn ⊢
        rw [finish_kx hn]
        unfold Kx.initiateRekey
        simp only [Bool.cond_eq_ite]
        split
        · exact h
        split
        · exact h
        · exact hfr h Frame.sendKexInit
    | writable more => exact h.keep onBufferedWrite_keeps.1 onBufferedWrite_keeps.2

end Lukko
