import Verif.Proof.KexFrame
/-
  The bookkeeping of strict key exchange.
-/
namespace Lukko
open Spec Model

/-- The name by which the peer announces strict key exchange. -/
def strictMarker : Role → Bytes
  | .server => ascii "kex-strict-c-v00@openssh.com"
  | .client => ascii "kex-strict-s-v00@openssh.com"

/-- A KEXINIT received by a server announces a packet that was guessed wrong. -/
def wrongGuess (e : KexEnv) (role : Role) (p : PKexInit) : Bool :=
  role == .server && (p.firstKexPacketFollows &&
    (firstStringListItem p.kex != findCommonAlgorithm p.kex allServerKexAlgorithms ||
      match e.chooseHostKey p.hostKey with
      | some (_, alg) => firstStringListItem p.hostKey != alg
      | none => false))

/-- Result of a successful `HandleKexInit`. -/
structure KexInitDone (e : KexEnv) (s s' : Kx) (body : Bytes) : Prop where
  inEnc : s'.inputEncrypted = s.inputEncrypted
  recv : received s'.log = received s.log
  role : s'.role = s.role
  was : s.flags.kexinitReceived = false
  now : s'.flags.kexinitReceived = true
  parsed : ∃ p, parseKexInit.parse body = some p ∧
    (s.inputEncrypted = false → s'.peerWantsStrict = stringListContains p.kex (strictMarker s.role)) ∧
    (s'.peerWantsStrict = true → s.firstPacketWasKexinit = true) ∧
    (s'.ignoreNextKexPacket = true → s.ignoreNextKexPacket = true ∨ wrongGuess e s.role p = true)

/-- What `SendKexInit` leaves alone. -/
theorem sendKexInit_flags {e} {s : Kx} : (s.sendKexInit e).1.inputEncrypted = s.inputEncrypted ∧
    (s.sendKexInit e).1.flags.kexinitReceived = s.flags.kexinitReceived := by
  unfold Kx.sendKexInit
  simp only [Bool.cond_eq_ite]
  split
  · exact ⟨rfl, rfl⟩
  split
  · exact ⟨rfl, rfl⟩
  · split <;> exact ⟨rfl, rfl⟩

theorem ensureKexInit_flags {e} {s : Kx} : (s.ensureKexInit e).1.inputEncrypted = s.inputEncrypted ∧
    (s.ensureKexInit e).1.flags.kexinitReceived = s.flags.kexinitReceived := by
  unfold Kx.ensureKexInit
  cases s.flags.kexinitSent
  · exact sendKexInit_flags
  · exact ⟨rfl, rfl⟩

theorem sendECDHKexInit_flags {e} {s : Kx} : (s.sendECDHKexInit e).1.inputEncrypted = s.inputEncrypted ∧
    (s.sendECDHKexInit e).1.flags.kexinitReceived = s.flags.kexinitReceived := by
  unfold Kx.sendECDHKexInit
  split
  · exact ⟨rfl, rfl⟩
  · simp only [Bool.cond_eq_ite]
    split
    · exact ⟨rfl, rfl⟩
    · unfold Kx.sendSer; split <;> exact ⟨rfl, rfl⟩

theorem andThen_none {r : KRes} {f : Kx → KRes} (h : (r.andThen f).2 = none) :
    r.2 = none ∧ r.andThen f = f r.1 := by
  obtain ⟨s, x⟩ := r
  cases x with
  | none => exact ⟨rfl, rfl⟩
  | some x => simp [KRes.andThen] at h

theorem handleKexInit₂_done {e} {s : Kx} {p neg} (h : (s.handleKexInit₂ e p neg).2 = none) :
    (s.handleKexInit₂ e p neg).1.inputEncrypted = s.inputEncrypted ∧
    (s.handleKexInit₂ e p neg).1.flags.kexinitReceived = s.flags.kexinitReceived ∧
    received (s.handleKexInit₂ e p neg).1.log = received s.log ∧
    (s.handleKexInit₂ e p neg).1.role = s.role ∧
    (s.handleKexInit₂ e p neg).1.peerWantsStrict = s.peerWantsStrict ∧
    (s.peerWantsStrict = true → s.firstPacketWasKexinit = true) ∧
    ((s.handleKexInit₂ e p neg).1.ignoreNextKexPacket = true → s.ignoreNextKexPacket = true ∨
      (s.role = .server ∧ p.firstKexPacketFollows = true ∧ ∃ hk alg, e.chooseHostKey p.hostKey = some (hk, alg) ∧
        (firstStringListItem p.kex != neg || firstStringListItem p.hostKey != alg) = true)) := by
  unfold Kx.handleKexInit₂ at h ⊢
  cases hb : s.peerWantsStrict && !s.firstPacketWasKexinit with
  | true => rw [hb] at h; simp at h
  | false =>
    have hstrict : s.peerWantsStrict = true → s.firstPacketWasKexinit = true := by
      intro hs; rw [hs] at hb; simpa using hb
    rw [hb] at h
    simp only [cond_false] at h ⊢
    split at h
    · rename_i hr
      split at h
      · simp at h
      · rename_i hk alg hch
        obtain ⟨h1, h2⟩ := andThen_none h
        rw [h2]
        simp only
        have hf := Frame.ensureKexInit (e := e) (s := { s with hostKey := some hk, hostKeyAlgorithm := alg })
        have hg := ensureKexInit_flags (e := e) (s := { s with hostKey := some hk, hostKeyAlgorithm := alg })
        obtain ⟨_, _, hrec⟩ := hf.log
        refine ⟨hg.1, hg.2, hrec, hf.role, hf.strict, hstrict, fun hi => .inr ⟨hr, ?_⟩⟩
        simp only [Bool.and_eq_true] at hi
        exact ⟨hi.1, hk, alg, hch, hi.2⟩
    · obtain ⟨h1, h2⟩ := andThen_none h
      rw [h2]
      have hf := Frame.ensureKexInit (e := e) (s := s)
      have hg := ensureKexInit_flags (e := e) (s := s)
      have hf' := hf.trans (Frame.sendECDHKexInit (e := e))
      have hg' := sendECDHKexInit_flags (e := e) (s := (s.ensureKexInit e).1)
      obtain ⟨_, _, hrec⟩ := hf'.log
      refine ⟨hg'.1.trans hg.1, hg'.2.trans hg.2, hrec, hf'.role, hf'.strict, hstrict, fun hi => .inl ?_⟩
      rw [hf'.ignore] at hi; exact hi

theorem handleKexInit_done {e} {s : Kx} {body} (h : (s.handleKexInit e body).2 = none) :
    KexInitDone e s (s.handleKexInit e body).1 body := by
  unfold Kx.handleKexInit at h ⊢
  simp only at h ⊢
  cases hb : s.flags.kexinitReceived || s.flags.newkeysSent || s.flags.newkeysReceived with
  | true => rw [hb] at h; simp at h
  | false =>
    have hwas : s.flags.kexinitReceived = false := by
      simp only [Bool.or_eq_false_iff] at hb; exact hb.1.1
    rw [hb] at h
    simp only [cond_false] at h ⊢
    split at h
    · simp at h
    · rename_i p hp
      split at h
      · simp at h
      · rename_i m hm
        obtain ⟨g1, g2, g3, g4, g5, g6, g7⟩ := handleKexInit₂_done h
        refine ⟨g1, g3, g4, hwas, g2, p, hp, ?_, ?_, ?_⟩
        · intro hin
          rw [g5]
          simp only [Kx.isEncrypted, hin, Bool.false_and, Bool.not_false, cond_true]
          cases s.role <;> rfl
        · intro hs; rw [g5] at hs; exact g6 hs
        · intro hi
          rcases g7 hi with hi | ⟨k1, k2, hk, alg, k3, k4⟩
          · exact .inl hi
          · right
            have k1' : s.role = .server := k1
            simp only [if_pos k1'] at k4
            simp only [wrongGuess, k3, k2, Bool.true_and, k1', beq_self_eq_true]
            exact k4

/-- Invariant. -/
structure StrictInv (e : KexEnv) (s : Kx) : Prop where
  before : s.inputEncrypted = false → s.flags.kexinitReceived = false →
    (∀ q ∈ received s.log, isMsg 20 q = false) ∧ s.firstPacketWasKexinit = (received s.log).isEmpty ∧
    s.ignoreNextKexPacket = false
  during : s.inputEncrypted = false → s.flags.kexinitReceived = true → ∃ l k p rest,
    received s.log = l ++ (20 :: k) :: rest ∧ parseKexInit.parse k = some p ∧
    (∀ q ∈ l ++ rest, isMsg 20 q = false) ∧
    s.peerWantsStrict = stringListContains p.kex (strictMarker s.role) ∧
    (s.peerWantsStrict = true → l = [] ∧
      ∀ q ∈ (if wrongGuess e s.role p then rest.tail else rest), ∃ msg body, q = msg :: body ∧ isAllowedKexMessage msg s.role = true) ∧
    (s.ignoreNextKexPacket = true → rest = [] ∧ wrongGuess e s.role p = true)

theorem StrictInv.frame {e} {s s' : Kx} (h : StrictInv e s) (hf : Frame s s') : StrictInv e s' := by
  obtain ⟨_, _, hr⟩ := hf.log
  have hin : s'.inputEncrypted = false → s.inputEncrypted = false ∧ s'.flags.kexinitReceived = s.flags.kexinitReceived := by
    intro h'
    refine ⟨?_, ?_⟩
    · cases hi : s.inputEncrypted with
      | false => rfl
      | true => rw [hf.mono hi] at h'; simp at h'
    · rcases hf.kex with h1 | h1
      · rw [h1] at h'; simp at h'
      · exact h1
  constructor
  · intro h1 h2
    obtain ⟨h1, h3⟩ := hin h1
    rw [hr, hf.first, hf.ignore]
    exact h.before h1 (h3 ▸ h2)
  · intro h1 h2
    obtain ⟨h1, h3⟩ := hin h1
    rw [hr, hf.strict, hf.ignore, hf.role]
    exact h.during h1 (h3 ▸ h2)

theorem StrictInv.of_encrypted {e} {s : Kx} (h : s.inputEncrypted = true) : StrictInv e s :=
  ⟨by simp [h], by simp [h]⟩

theorem handlePacket₂_20 {e} {s : Kx} {body} : s.handlePacket₂ e 20 body .unclaimed = s.handleKexInit e body := rfl

/-- A packet with the second KEXINIT stops the connection. -/
theorem second_kexinit {e} {s : Kx} {msg body claim} (hk : s.flags.kexinitReceived = true)
    (hc : ClaimOk (msg :: body) claim) (hn : (s.handlePacket₂ e msg body claim).2 = none) :
    msg ≠ 20 := by
  rintro rfl
  have : claim = .unclaimed := by simpa [ClaimOk] using hc
  subst this
  rw [handlePacket₂_20] at hn
  have := (handleKexInit_done hn).was
  rw [hk] at this; simp at this

theorem StrictInv.same {e} {s s' : Kx} (h : StrictInv e s) (h1 : received s'.log = received s.log)
    (h2 : s'.peerWantsStrict = s.peerWantsStrict) (h3 : s'.firstPacketWasKexinit = s.firstPacketWasKexinit)
    (h4 : s'.ignoreNextKexPacket = s.ignoreNextKexPacket) (h5 : s'.role = s.role)
    (h6 : s'.inputEncrypted = s.inputEncrypted) (h7 : s'.flags = s.flags) : StrictInv e s' := by
  constructor
  · rw [h6, h7, h1, h3, h4]; exact h.before
  · rw [h6, h7, h1, h2, h4, h5]; exact h.during

theorem handleRawPacket_strict {e} {s : Kx} {raw claim} (h : StrictInv e s) (hc : ClaimOk raw claim)
    (hn : (s.handleRawPacket e raw claim).2 = none) : StrictInv e (s.handleRawPacket e raw claim).1 := by
  unfold Kx.handleRawPacket at hn ⊢
  cases raw with
  | nil => simp at hn
  | cons msg body =>
    simp only at hn ⊢
    unfold Kx.handlePacket at hn ⊢
    cases hin : s.inputEncrypted with
    | true =>
      have hin' : (s.emit (.recv (msg :: body))).inputEncrypted = true := hin
      rw [hin', cond_true] at hn ⊢
      by_cases hm : msg ≠ 20 ∨ claim ≠ .unclaimed
      · exact .of_encrypted ((Frame.handlePacket₂ hm).mono hin)
      · simp only [not_or, Decidable.not_not] at hm
        obtain ⟨rfl, rfl⟩ := hm
        exact .of_encrypted ((handleKexInit_done hn).inEnc.trans hin)
    | false =>
      have hin' : (s.emit (.recv (msg :: body))).inputEncrypted = false := hin
      rw [hin', cond_false] at hn ⊢
      cases hk : s.flags.kexinitReceived with
      | false =>
        have hk' : (s.emit (.recv (msg :: body))).flags.kexinitReceived = false := hk
        rw [hk', Bool.not_false, cond_true] at hn ⊢
        obtain ⟨b1, b2, b3⟩ := h.before hin hk
        by_cases hm : msg = 20
        · subst hm
          have : claim = .unclaimed := by simpa [ClaimOk] using hc
          subst this
          rw [handlePacket₂_20] at hn ⊢
          have hd := handleKexInit_done hn
          obtain ⟨p, p1, p2, p3, p4⟩ := hd.parsed
          constructor
          · intro _ hx; rw [hd.now] at hx; simp at hx
          · intro _ _
            refine ⟨received s.log, body, p, [], ?_, p1, ?_, ?_, ?_, ?_⟩
            · rw [hd.recv]; simp
            · simpa using b1
            · rw [p2 (by first | exact hin | rfl), hd.role]
            · intro hs
              have := p3 hs
              have hf : (s.firstPacketWasKexinit && (20 : UInt8) == MSG_KEXINIT) = true := this
              rw [b2] at hf
              have hf' : (received s.log).isEmpty = true := by
                simp only [Bool.and_eq_true] at hf; exact hf.1
              exact ⟨List.isEmpty_iff.1 hf', by simp⟩
            · intro hi
              rcases p4 hi with hi | hi
              · have hi' : s.ignoreNextKexPacket = true := hi
                rw [b3] at hi'; simp at hi'
              · exact ⟨rfl, by rw [hd.role]; exact hi⟩
        · refine StrictInv.frame ?_ (Frame.handlePacket₂ (.inl hm))
          constructor
          · intro _ _
            refine ⟨?_, ?_, b3⟩
            · intro q hq
              simp only [emit_log, inBytes_snoc, List.mem_append, List.mem_singleton] at hq
              rcases hq with hq | rfl
              · exact b1 q hq
              · simp [isMsg, hm]
            · have : (msg == MSG_KEXINIT) = false := by simpa using hm
              simp [Kx.emit, this]
          · intro _ hx
            have hx' : s.flags.kexinitReceived = true := hx
            rw [hk] at hx'; simp at hx'
      | true =>
        have hk' : (s.emit (.recv (msg :: body))).flags.kexinitReceived = true := hk
        rw [hk', Bool.not_true, cond_false] at hn ⊢
        obtain ⟨l, k, p, rest, d1, d2, d3, d4, d5, d6⟩ := h.during hin hk
        cases hi : s.ignoreNextKexPacket with
        | true =>
          obtain ⟨rfl, d7⟩ := d6 hi
          have hi' : (s.emit (.recv (msg :: body))).ignoreNextKexPacket = true := hi
          rw [hi', cond_true] at hn ⊢
          have key : msg ≠ 20 → StrictInv e { s.emit (.recv (msg :: body)) with ignoreNextKexPacket := false } := by
            intro hm
            constructor
            · intro _ hx; have hx' : s.flags.kexinitReceived = false := hx; rw [hk] at hx'; simp at hx'
            · intro _ _
              refine ⟨l, k, p, [msg :: body], ?_, d2, ?_, d4, ?_, by simp⟩
              · simp [Kx.emit, d1]
              · intro q hq
                rw [List.mem_append, List.mem_singleton] at hq
                rcases hq with hq | rfl
                · exact d3 q (by simp [hq])
                · simp [isMsg, hm]
              · intro hs
                refine ⟨(d5 hs).1, ?_⟩
                have d7' : wrongGuess e (Kx.role { s.emit (.recv (msg :: body)) with ignoreNextKexPacket := false }) p = true := d7
                rw [if_pos d7']; simp
          cases hkx : isKex msg with
          | true =>
            rw [hkx] at hn
            exact (key (by rintro rfl; simp [isKex] at hkx)).same rfl rfl rfl rfl rfl hin.symm rfl
          | false =>
            rw [hkx] at hn
            simp only [cond_false] at hn ⊢
            have hm := second_kexinit (by exact hk) hc hn
            refine StrictInv.frame ?_ (Frame.handlePacket₂ (.inl hm))
            exact (key hm).same rfl rfl rfl rfl rfl hin.symm rfl
        | false =>
          have hi' : (s.emit (.recv (msg :: body))).ignoreNextKexPacket = false := hi
          rw [hi', cond_false] at hn ⊢
          cases hs : s.peerWantsStrict && !isAllowedKexMessage msg s.role with
          | true =>
            have hs' : ((s.emit (.recv (msg :: body))).peerWantsStrict &&
              !isAllowedKexMessage msg (s.emit (.recv (msg :: body))).role) = true := hs
            rw [hs'] at hn; simp at hn
          | false =>
            have hs' : ((s.emit (.recv (msg :: body))).peerWantsStrict &&
              !isAllowedKexMessage msg (s.emit (.recv (msg :: body))).role) = false := hs
            rw [hs', cond_false] at hn ⊢
            have hm := second_kexinit (by exact hk) hc hn
            refine StrictInv.frame ?_ (Frame.handlePacket₂ (.inl hm))
            constructor
            · intro _ hx; have hx' : s.flags.kexinitReceived = false := hx; rw [hk] at hx'; simp at hx'
            · intro _ _
              refine ⟨l, k, p, rest ++ [msg :: body], ?_, d2, ?_, d4, ?_, ?_⟩
              · simp [d1]
              · intro q hq
                rw [← List.append_assoc, List.mem_append, List.mem_singleton] at hq
                rcases hq with hq | rfl
                · exact d3 q hq
                · simp [isMsg, hm]
              · intro hst
                have hst' : s.peerWantsStrict = true := hst
                obtain ⟨d8, d9⟩ := d5 hst'
                refine ⟨d8, ?_⟩
                rw [hst'] at hs
                have hal : isAllowedKexMessage msg s.role = true := by simpa using hs
                intro q hq
                have : q ∈ (if wrongGuess e s.role p then rest.tail else rest) ∨ q = msg :: body := by
                  have hq' : q ∈ (if wrongGuess e s.role p then (rest ++ [msg :: body]).tail else rest ++ [msg :: body]) := hq
                  split at hq'
                  · rename_i hw
                    rw [if_pos hw]
                    cases rest with
                    | nil => simp at hq'
                    | cons a r => simpa using hq'
                  · rename_i hw
                    rw [if_neg hw]
                    simpa using hq'
                rcases this with hq | rfl
                · exact d9 q hq
                · exact ⟨msg, body, rfl, hal⟩
              · intro hx
                have hx' : s.ignoreNextKexPacket = true := hx
                rw [hi] at hx'; simp at hx'

theorem StrictInv.init (e role) : StrictInv e (KxSys.init role).kx := by
  constructor
  · intro _ _; exact ⟨by simp [KxSys.init, received], rfl, rfl⟩
  · intro _ h; simp [KxSys.init] at h

theorem onBufferedWrite_strict {e} {s : Kx} {more} (h : StrictInv e s) : StrictInv e (s.onBufferedWrite more) := by
  unfold Kx.onBufferedWrite
  simp only [Bool.cond_eq_ite]
  have h1 : StrictInv e (if (s.writeBlocked && !Kx.isRekeying { s with writeBlocked := false }) = true
      then Kx.emit { s with writeBlocked := false } .unblocked else { s with writeBlocked := false }) := by
    split
    · exact h.same (by simp [Kx.emit]) rfl rfl rfl rfl rfl rfl
    · exact h.same rfl rfl rfl rfl rfl rfl rfl
  generalize (if (s.writeBlocked && !Kx.isRekeying { s with writeBlocked := false }) = true
      then Kx.emit { s with writeBlocked := false } .unblocked else { s with writeBlocked := false }) = s1 at h1 ⊢
  split
  · split
    · exact h1.same (by simp [Kx.emit]) rfl rfl rfl rfl rfl rfl
    · exact h1.same rfl rfl rfl rfl rfl rfl rfl
  · exact h1

theorem finish_stop (r : KRes) : (KxSys.finish r).stop = r.2 := by
  obtain ⟨s, x⟩ := r; unfold KxSys.finish; cases x with
  | none => rfl
  | some x => cases x <;> rfl

theorem finish_kx {r : KRes} (h : r.2 = none) : (KxSys.finish r).kx = r.1 := by
  obtain ⟨s, x⟩ := r; subst h; rfl

theorem step_strict {e} {y : KxSys} {ev} (h : y.stop = none → StrictInv e y.kx) (hev : EventOk ev)
    (hn : (y.step e ev).stop = none) : StrictInv e (y.step e ev).kx := by
  obtain ⟨s, stop⟩ := y
  cases stop with
  | some x => simp [KxSys.step] at hn
  | none =>
    have h := h rfl
    unfold KxSys.step at hn ⊢
    simp only at h hn ⊢
    cases ev with
    | version v =>
      simp only at hn ⊢
      cases hv : s.versionExchanged with
      | true => exact h
      | false =>
        rw [hv] at hn
        simp only [cond_false, finish_stop] at hn ⊢
        rw [finish_kx hn]
        unfold Kx.onVersion
        have h0 : StrictInv e ({ s with peerVersion := v, versionExchanged := true }.emit (.version v)) :=
          h.same (by simp [Kx.emit]) rfl rfl rfl rfl rfl rfl
        simp only [Bool.cond_eq_ite]
        split
        · exact h0.frame Frame.sendKexInit
        · exact h0
    | packet raw claim =>
      simp only at hn ⊢
      cases hv : s.versionExchanged with
      | false => exact h
      | true =>
        rw [hv] at hn
        simp only [cond_true, finish_stop] at hn ⊢
        rw [finish_kx hn]
        exact handleRawPacket_strict h hev hn
    | authenticated =>
      simp only at hn ⊢
      cases hv : s.isEncrypted && !s.authenticated with
      | false => exact h
      | true =>
        rw [hv] at hn
        simp only [cond_true, finish_stop] at hn ⊢
        rw [finish_kx hn]
        unfold Kx.setAuthenticated
        simp only [Bool.cond_eq_ite]
        split
        · exact h
        · exact h.same rfl rfl rfl rfl rfl rfl rfl
    | rekeyTimer =>
      simp only at hn ⊢
      cases hv : s.authenticated with
      | false => exact h
      | true =>
        rw [hv] at hn
        simp only [cond_true, finish_stop] at hn ⊢
        rw [finish_kx hn]
        unfold Kx.initiateRekey
        simp only [Bool.cond_eq_ite]
        split
        · exact h
        split
        · exact h
        · exact h.frame Frame.sendKexInit
    | writable more => exact onBufferedWrite_strict h

theorem run_strict {e} {y : KxSys} {evs} (h : y.stop = none → StrictInv e y.kx) (hev : ∀ ev ∈ evs, EventOk ev)
    (hn : (y.run e evs).stop = none) : StrictInv e (y.run e evs).kx := by
  have : (y.run e evs).stop = none → StrictInv e (y.run e evs).kx := by
    clear hn
    unfold KxSys.run
    induction evs generalizing y with
    | nil => exact h
    | cons ev evs ih =>
      exact ih (fun hn => step_strict h (hev ev (by simp)) hn) (fun x hx => hev x (by simp [hx]))
  exact this hn

end Lukko
