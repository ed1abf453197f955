import Verif.Proof.Kex
import Verif.Proof.Parse
/-
  Invariant of the key exchange.
-/
namespace Lukko
open Spec Model

/-- The facts about an agreement made by a client: what preceded it. -/
def ClientAgreed (e : KexEnv) (pre : List Entry) (t : Transcript) : Prop :=
  ∃ pre' sig, pre = pre' ++ [.recv (31 :: ecdhReplyBody t.hostKey t.serverEph sig)] ∧
    (∃ accepts, e.verifier = some accepts ∧ accepts t.hostKey = true) ∧
    e.verify t.hostKey (e.digest (hashInput t)) sig = true ∧
    t.clientVersion = e.ownVersion ∧
    Spec.peerVersion pre' = some t.serverVersion ∧
    lastSent 20 pre' = some t.clientKexinit ∧
    lastRecv 20 pre' = some t.serverKexinit ∧
    lastSent 30 pre' = some (ecdhInitBody t.clientEph) ∧
    ∃ m n p, e.ephPub m n = t.clientEph ∧ e.shared m n t.serverEph = some t.secret ∧
      parseKexInit.parse t.serverKexinit = some p ∧
      makeKex (findCommonAlgorithm allClientKexAlgorithms p.kex) = some m

/-- The facts about an agreement made by a server. -/
def ServerAgreed (e : KexEnv) (pre : List Entry) (t : Transcript) : Prop :=
  ∃ pre' sig hk alg p, pre = pre' ++ [.recv (30 :: ecdhInitBody t.clientEph),
      .sent (31 :: ecdhReplyBody t.hostKey t.serverEph sig)] ∧
    t.hostKey = e.hostKeyBlob hk ∧
    e.sign hk (e.digest (hashInput t)) alg = some sig ∧
    parseKexInit.parse t.clientKexinit = some p ∧ e.chooseHostKey p.hostKey = some (hk, alg) ∧
    t.serverVersion = e.ownVersion ∧
    Spec.peerVersion pre' = some t.clientVersion ∧
    lastSent 20 pre' = some t.serverKexinit ∧
    lastRecv 20 pre' = some t.clientKexinit ∧
    ∃ m n, e.ephPub m n = t.serverEph ∧ e.shared m n t.clientEph = some t.secret ∧
      makeKex (findCommonAlgorithm p.kex allServerKexAlgorithms) = some m

/-- The facts about an installed cipher. -/
def Installed (e : KexEnv) (role : Role) (dir : Direction) (pre : List Entry) (enc mac : Bytes) (keys : Keys) : Prop :=
  ∃ t, lastAgreed pre = some t ∧
    keys = keysFor e.digest t.secret (e.digest (hashInput t)) (sessionIdOf e.digest pre) 1 (wayOf role dir) ∧
    (makeCipher enc mac).isSome ∧
    ∃ k p, lastRecv 20 pre = some k ∧ parseKexInit.parse k = some p ∧
      enc = findNegotiatedAlgorithm role dir allEncryptionAlgorithms p.encC2S p.encS2C ∧
      mac = findNegotiatedAlgorithm role dir allMacAlgorithms p.macC2S p.macS2C

/-- A KEXINIT with our proposal. -/
def Offer (e : KexEnv) (role : Role) (p : Bytes) : Prop :=
  ∃ i ser, makeKexInit (e.cookie i) (e.proposal role) = .ok ser ∧ p = ser.since 5

/-- What holds of every event, given the history before it. -/
def Good (e : KexEnv) (role : Role) (pre : List Entry) : Entry → Prop
  | .sent p => (isMsg 21 p = true → ∃ pre' t, pre = pre' ++ [.agreed t]) ∧ (isMsg 20 p = true → Offer e role p)
  | .agreed t => match role with
    | .client => ClientAgreed e pre t
    | .server => ServerAgreed e pre t
  | .installOut enc mac keys => Installed e role .outgoing pre enc mac keys ∧ ∃ pre', pre = pre' ++ [.sent [21]]
  | .installIn enc mac keys => Installed e role .incoming pre enc mac keys ∧ ∃ pre' body, pre = pre' ++ [.recv (21 :: body)]
  | .encrypted => hasOut pre = true ∧ hasIn pre = true ∧ ∀ x ∈ pre, x ≠ .encrypted
  | _ => True

/-- What holds of every history, also one that was cut short. -/
structure Safe (e : KexEnv) (role : Role) (s : Kx) : Prop where
  phase : ∃ φ, phaseOf s.log = some φ
  told : ∃ b, toldBlocked s.log = some b
  session : s.ks.sessionId = sessionIdOf e.digest s.log
  every : Every (Good e role) s.log

/-- Invariant of a running connection. -/
structure KInv (e : KexEnv) (role : Role) (φ : Phase) (s : Kx) : Prop where
  roleEq : s.role = role
  phase : phaseOf s.log = some φ
  alive : φ.refused = false
  fSent : s.flags.kexinitSent = φ.kexSent
  fRecv : s.flags.kexinitReceived = φ.kexRecv
  fNewSent : s.flags.newkeysSent = φ.newSent
  fNewRecv : s.flags.newkeysReceived = φ.newRecv
  told : toldBlocked s.log = some (s.writeBlocked || s.isRekeying)
  outEnc : s.outputEncrypted = hasOut s.log
  inEnc : s.inputEncrypted = hasIn s.log
  inOut : s.inputEncrypted = true → s.outputEncrypted = true
  enc : (∃ x ∈ s.log, x = Entry.encrypted) → s.inputEncrypted = true
  authEnc : s.authenticated = true → s.isEncrypted = true
  session : s.ks.sessionId = sessionIdOf e.digest s.log
  keys : φ.secret = true → ∃ t, lastAgreed s.log = some t ∧
    s.ks.newKeysIn = keysFor e.digest t.secret (e.digest (hashInput t)) (sessionIdOf e.digest s.log) 1
      (wayOf role .incoming) ∧
    s.ks.newKeysOut = keysFor e.digest t.secret (e.digest (hashInput t)) (sessionIdOf e.digest s.log) 1
      (wayOf role .outgoing)
  mySent : φ.kexSent = true → lastSent 20 s.log = some s.myKexinit
  peerRecv : φ.kexRecv = true → lastRecv 20 s.log = some s.peerKexinit
  algs : φ.kexRecv = true → ∃ p, parseKexInit.parse s.peerKexinit = some p ∧
    s.encC2S = p.encC2S ∧ s.encS2C = p.encS2C ∧ s.macC2S = p.macC2S ∧ s.macS2C = p.macS2C
  vFirst : s.versionExchanged = false → φ = {} ∧ s.outputEncrypted = false ∧ Spec.peerVersion s.log = none
  version : s.versionExchanged = true → Spec.peerVersion s.log = some s.peerVersion
  every : Every (Good e role) s.log

/-- Between two events. -/
structure Rest (e : KexEnv) (role : Role) (φ : Phase) (s : Kx) : Prop extends KInv e role φ s where
  secretNew : φ.secret = φ.newSent
  outNew : φ.outSet = φ.newSent
  noNewRecv : φ.newRecv = false
  outSetEnc : φ.outSet = true → s.outputEncrypted = true
  both : φ.newSent = true → φ.kexSent = true ∧ φ.kexRecv = true
  kexRecvSent : φ.kexRecv = true → φ.kexSent = true
  ready : (φ.kexRecv && !φ.newSent) = s.kex.isSome
  method : ∀ m n, s.kex = some (m, n) → ∃ p, parseKexInit.parse s.peerKexinit = some p ∧
    makeKex (if role = .server then findCommonAlgorithm p.kex allServerKexAlgorithms
      else findCommonAlgorithm allClientKexAlgorithms p.kex) = some m
  host : role = .server → s.kex.isSome = true → ∃ hk p, s.hostKey = some hk ∧
    parseKexInit.parse s.peerKexinit = some p ∧ e.chooseHostKey p.hostKey = some (hk, s.hostKeyAlgorithm)
  eph : role = .client → ∀ m n, s.kex = some (m, n) → lastSent 30 s.log = some (ecdhInitBody (e.ephPub m n))

theorem KInv.safe {e role φ s} (h : KInv e role φ s) : Safe e role s :=
  ⟨⟨_, h.phase⟩, ⟨_, h.told⟩, h.session, h.every⟩

/-- The result of a function that may throw. -/
def Post (e : KexEnv) (role : Role) (r : KRes) (Q : Kx → Prop) : Prop :=
  match r.2 with
  | none => Q r.1
  | some x => Safe e role r.1 ∧ x ≠ .assertFailed

theorem Post.andThen {e role r f} {Q R : Kx → Prop} (h : Post e role r Q)
    (hf : ∀ s, Q s → Post e role (f s) R) : Post e role (r.andThen f) R := by
  obtain ⟨s, x⟩ := r
  cases x with
  | none => exact hf s h
  | some x => exact h

theorem Post.imp {e role r} {Q R : Kx → Prop} (h : Post e role r Q) (hf : ∀ s, Q s → R s) : Post e role r R := by
  obtain ⟨s, x⟩ := r
  cases x with
  | none => exact hf s h
  | some x => exact h

/-! ### Emission -/

theorem sessionIdOf_snoc (d : Bytes → Bytes) (l : List Entry) (x : Entry) (hx : ∀ t, x ≠ .agreed t) :
    sessionIdOf d (l ++ [x]) = sessionIdOf d l := by
  simp only [sessionIdOf, firstAgreed_snoc]
  cases firstAgreed l <;> cases x <;> simp_all

/-- Sending a packet that is not part of the state machine. -/
theorem KInv.sent {e role φ s p} (h : KInv e role φ s) (h1 : isMsg 1 p = false) (h20 : isMsg 20 p = false)
    (h21 : isMsg 21 p = false) (ho : φ.newSent = true → φ.outSet = true) (hr : φ.newRecv = false) :
    KInv e role φ (s.emit (.sent p)) := by
  have hn : φ.next (.sent p) = some φ := by
    have hc : (φ.newSent && !φ.outSet || φ.newRecv) = false := by
      cases hns : φ.newSent with
      | false => simp [hr]
      | true => simp [ho hns, hr]
    simp only [Phase.next, h1, h20, h21, h.alive, hc]
    rfl
  obtain ⟨a1, a2, a3, a4, a5, a6, a7, a8, a9, a10, a11, a12, a13, a14, a15, a16, a17, a18, a19, a20, a21⟩ := h
  constructor
  all_goals try (simp only [emit_log, phaseOf_snoc, a2, toldBlocked_snoc, a8, Kx.emit, hasOut_snoc, hasIn_snoc,
    lastAgreed_snoc, lastSent_snoc, lastRecv_snoc, peerVersion_snoc, h20, hn, Option.bind_some,
    sessionIdOf_snoc _ _ (.sent p) (by simp), Bool.or_false])
  all_goals try assumption
  · intro hx; apply a12; simpa using hx
  · exact a21.snoc (by simp [Good, h21, h20])

theorem KInv.recv {e role φ s p} (h : KInv e role φ s) (h20 : isMsg 20 p = false)
    (h21 : isMsg 21 p = false) (ho : φ.newSent = true → φ.outSet = true) (hr : φ.newRecv = false) :
    KInv e role φ (s.emit (.recv p)) := by
  have hn : φ.next (.recv p) = some φ := by
    have hc : (φ.refused || (φ.newSent && !φ.outSet) || φ.newRecv) = false := by
      cases hns : φ.newSent with
      | false => simp [hr, h.alive]
      | true => simp [ho hns, hr, h.alive]
    simp only [Phase.next, h20, h21, hc]
    rfl
  obtain ⟨a1, a2, a3, a4, a5, a6, a7, a8, a9, a10, a11, a12, a13, a14, a15, a16, a17, a18, a19, a20, a21⟩ := h
  constructor
  all_goals try (simp only [emit_log, phaseOf_snoc, a2, toldBlocked_snoc, a8, Kx.emit, hasOut_snoc, hasIn_snoc,
    lastAgreed_snoc, lastSent_snoc, lastRecv_snoc, peerVersion_snoc, h20, hn, Option.bind_some,
    sessionIdOf_snoc _ _ (.recv p) (by simp), Bool.or_false])
  all_goals try assumption
  · intro hx; apply a12; simpa using hx
  · exact a21.snoc (by simp [Good])

/-! ### Primitives -/

/-- What sending our KEXINIT leaves alone. -/
structure SameKex (s s' : Kx) : Prop where
  kex : s'.kex = s.kex
  hostKey : s'.hostKey = s.hostKey
  alg : s'.hostKeyAlgorithm = s.hostKeyAlgorithm
  peer : s'.peerKexinit = s.peerKexinit
  version : s'.versionExchanged = s.versionExchanged

theorem next_blocked (φ : Phase) : φ.next .blocked = some φ := rfl
theorem next_unblocked (φ : Phase) : φ.next .unblocked = some φ := rfl
theorem next_encrypted (φ : Phase) : φ.next .encrypted = some φ := rfl

theorem sendKexInit_post {e role φ s} (h : KInv e role φ s) (hv : s.versionExchanged = true)
    (h1 : φ.kexSent = false) (h2 : φ.newSent = false) (h3 : φ.newRecv = false) :
    Post e role (s.sendKexInit e) (fun s' => KInv e role { φ with kexSent := true } s' ∧ SameKex s s') := by
  unfold Kx.sendKexInit
  have hg : (s.flags.kexinitSent || s.flags.newkeysSent || s.flags.newkeysReceived) = false := by
    rw [h.fSent, h.fNewSent, h.fNewRecv, h1, h2, h3]; rfl
  rw [hg]
  simp only [cond_false]
  split
  · exact ⟨h.safe, by simp⟩
  · rename_i ser hser
    obtain ⟨hp1, hp2⟩ := makeKexInit_payload hser
    generalize hbody : ser.since 6 = body at hp1 hp2 ⊢
    have hn1 : isMsg 1 (20 :: body) = false := rfl
    have hn20 : isMsg 20 (20 :: body) = true := rfl
    have hn21 : isMsg 21 (20 :: body) = false := rfl
    have hn : φ.next (.sent (20 :: body)) = some { φ with kexSent := true } := by
      simp [Phase.next, hn1, hn20, h.alive, h1, h2, h3]
    have hoff : Offer e role (20 :: body) := ⟨s.cookies, ser, by rw [← h.roleEq]; exact hser, hp1.symm⟩
    rw [hp1]
    refine ⟨?_, ?_⟩
    · obtain ⟨a1, a2, a3, a4, a5, a6, a7, a8, a9, a10, a11, a12, a13, a14, a15, a16, a17, a18, a19, a20, a21⟩ := h
      have e1 : s.flags.kexinitSent = false := by rw [a4, h1]
      have e2 : s.flags.newkeysSent = false := by rw [a6, h2]
      rw [Bool.cond_eq_ite]
      split
      · rename_i hc
        replace hc : s.outputEncrypted = true ∧ s.writeBlocked = false := by
          simpa [Kx.isRekeying, e2] using hc
        have e3 : toldBlocked s.log = some false := by rw [a8]; simp [Kx.isRekeying, e1, hc.2]
        constructor
        all_goals try (simp only [phaseOf_snoc, a2, toldBlocked_snoc, Kx.emit, hasOut_snoc, hasIn_snoc, e3,
          lastAgreed_snoc, lastSent_snoc, lastRecv_snoc, peerVersion_snoc, hn20, hn, Option.bind_some, next_blocked,
          sessionIdOf_snoc _ _ (.sent (20 :: body)) (by simp), sessionIdOf_snoc _ _ .blocked (by simp), Bool.or_false])
        all_goals try first | assumption | exact h2.symm
        · simp [Kx.isRekeying, hc.1, e2]
        · intro hx; apply a12; simpa using hx
        · intro _; rfl
        · intro hx; rw [hv] at hx; simp at hx
        · exact (a21.snoc (by simp [Good])).snoc (by simp [Good, hn21, hoff])
      · rename_i hc
        replace hc : s.outputEncrypted = true → s.writeBlocked = true := by
          simpa [Kx.isRekeying, e2] using hc
        have e3 : toldBlocked s.log = some s.writeBlocked := by rw [a8]; simp [Kx.isRekeying, e1]
        constructor
        all_goals try (simp only [phaseOf_snoc, a2, toldBlocked_snoc, Kx.emit, hasOut_snoc, hasIn_snoc, e3,
          lastAgreed_snoc, lastSent_snoc, lastRecv_snoc, peerVersion_snoc, hn20, hn, Option.bind_some,
          sessionIdOf_snoc _ _ (.sent (20 :: body)) (by simp), Bool.or_false])
        all_goals try first | assumption | exact h2.symm
        · simp only [Kx.isRekeying, e2]
          revert hc; cases s.outputEncrypted <;> cases s.writeBlocked <;> simp
        · intro hx; apply a12; simpa using hx
        · intro _; rfl
        · intro hx; rw [hv] at hx; simp at hx
        · exact a21.snoc (by simp [Good, hn21, hoff])
    · rw [Bool.cond_eq_ite]
      split <;> exact ⟨rfl, rfl, rfl, rfl, rfl⟩

theorem ensureKexInit_post {e role φ s} (h : KInv e role φ s) (hv : s.versionExchanged = true)
    (h2 : φ.newSent = false) (h3 : φ.newRecv = false) :
    Post e role (s.ensureKexInit e) (fun s' => KInv e role { φ with kexSent := true } s' ∧ SameKex s s') := by
  unfold Kx.ensureKexInit
  cases hs : φ.kexSent with
  | true =>
    rw [h.fSent, hs]
    refine ⟨?_, ⟨rfl, rfl, rfl, rfl, rfl⟩⟩
    have : { φ with kexSent := true } = φ := by cases φ; simp_all
    simpa [this] using h
  | false =>
    rw [h.fSent, hs]
    exact sendKexInit_post h hv hs h2 h3

theorem sendECDHKexInit_post {e φ s m n} (h : KInv e .client φ s) (hk : s.kex = some (m, n))
    (h0 : φ.kexSent = true) (h1 : φ.kexRecv = true)
    (h2 : φ.newSent = false) (h3 : φ.newRecv = false) :
    Post e .client (s.sendECDHKexInit e) (fun s' => KInv e .client φ s' ∧ SameKex s s' ∧
      lastSent 30 s'.log = some (ecdhInitBody (e.ephPub m n))) := by
  unfold Kx.sendECDHKexInit
  rw [hk]
  simp only [h.roleEq, h.fSent, h.fRecv, h.fNewSent, h.fNewRecv, h0, h1, h2, h3]
  show Post e .client (s.sendSer _) _
  unfold Kx.sendSer
  split
  · rename_i ser hser
    rw [makeECDHKexInit_payload hser]
    refine ⟨h.sent rfl rfl rfl (by simp [h2]) h3, ⟨rfl, rfl, rfl, rfl, rfl⟩, ?_⟩
    simp [lastSent_snoc, isMsg]
  · exact ⟨h.safe, by simp⟩

theorem handleKexInit₂_post {e role φ s p m n} {negotiated : Bytes} (h : KInv e role φ s) (hv : s.versionExchanged = true)
    (hneg : negotiated = if role = .server then findCommonAlgorithm p.kex allServerKexAlgorithms
      else findCommonAlgorithm allClientKexAlgorithms p.kex) (hmk : makeKex negotiated = some m)
    (hk : s.kex = some (m, n)) (hp : parseKexInit.parse s.peerKexinit = some p)
    (h1 : φ.kexRecv = true) (h2 : φ.newSent = false) (h3 : φ.newRecv = false) (h4 : φ.secret = false)
    (h5 : φ.outSet = false) :
    Post e role (s.handleKexInit₂ e p negotiated) (fun s' => Rest e role { φ with kexSent := true } s') := by
  unfold Kx.handleKexInit₂
  cases hb : s.peerWantsStrict && !s.firstPacketWasKexinit with
  | true => exact ⟨h.safe, by simp⟩
  | false =>
    simp only [cond_false]
    split
    · rename_i hr
      obtain rfl : role = .server := by rw [← h.roleEq]; exact hr
      split
      · exact ⟨⟨⟨_, h.phase⟩, ⟨_, h.told⟩, h.session, h.every⟩, by simp⟩
      · rename_i hk' alg hch
        have h' : KInv e .server φ { s with hostKey := some hk', hostKeyAlgorithm := alg } := by
          obtain ⟨a1, a2, a3, a4, a5, a6, a7, a8, a9, a10, a11, a12, a13, a14, a15, a16, a17, a18, a19, a20, a21⟩ := h
          constructor <;> assumption
        refine Post.andThen (ensureKexInit_post h' hv h2 h3) ?_
        rintro s' ⟨hs', sk⟩
        have hs'' : KInv e .server { φ with kexSent := true } { s' with ignoreNextKexPacket := p.firstKexPacketFollows &&
            (firstStringListItem p.kex != negotiated || firstStringListItem p.hostKey != alg) } := by
          obtain ⟨a1, a2, a3, a4, a5, a6, a7, a8, a9, a10, a11, a12, a13, a14, a15, a16, a17, a18, a19, a20, a21⟩ := hs'
          constructor <;> assumption
        refine { hs'' with
          secretNew := by simp [h2, h4]
          outNew := by simp [h2, h5]
          noNewRecv := h3
          outSetEnc := by simp [h5]
          both := by simp [h2]
          kexRecvSent := by simp
          ready := ?_
          method := ?_
          host := ?_
          eph := by simp }
        · simp only [h1, h2, sk.kex, hk]; rfl
        · intro m' n' hm
          have hm' : s'.kex = some (m', n') := hm
          rw [sk.kex, show Kx.kex { s with hostKey := some hk', hostKeyAlgorithm := alg } = s.kex from rfl, hk] at hm'
          simp at hm'; obtain ⟨rfl, rfl⟩ := hm'
          refine ⟨p, ?_, by rw [← hneg]; exact hmk⟩
          show parseKexInit.parse s'.peerKexinit = _
          rw [sk.peer]; exact hp
        · intro _ _
          refine ⟨hk', p, sk.hostKey, ?_, ?_⟩
          · show parseKexInit.parse s'.peerKexinit = _
            rw [sk.peer]; exact hp
          · show _ = some (hk', s'.hostKeyAlgorithm)
            rw [sk.alg]; exact hch
    · rename_i hr
      obtain rfl : role = .client := by rw [← h.roleEq]; exact hr
      refine Post.andThen (ensureKexInit_post h hv h2 h3) ?_
      rintro s' ⟨hs', sk⟩
      refine Post.imp (sendECDHKexInit_post hs' (sk.kex.trans hk) rfl h1 h2 h3) ?_
      rintro s'' ⟨hs'', sk', he⟩
      refine { hs'' with
        secretNew := by simp [h2, h4]
        outNew := by simp [h2, h5]
        noNewRecv := h3
        outSetEnc := by simp [h5]
        both := by simp [h2]
        kexRecvSent := by simp
        ready := ?_
        method := ?_
        host := by simp
        eph := ?_ }
      · rw [sk'.kex, sk.kex, hk, h1, h2]; rfl
      · intro m' n' hm
        rw [sk'.kex, sk.kex, hk] at hm
        simp at hm; obtain ⟨rfl, rfl⟩ := hm
        exact ⟨p, by rw [sk'.peer, sk.peer]; exact hp, by rw [← hneg]; exact hmk⟩
      · intro _ m' n' hm
        rw [sk'.kex, sk.kex, hk] at hm
        simp at hm; obtain ⟨rfl, rfl⟩ := hm
        exact he

/-- SHA-256. -/
def Digest32 (e : KexEnv) : Prop := ∀ x, (e.digest x).length = 32

theorem deriveKeys_post {e role φ s t} (hd : Digest32 e) (h : KInv e role φ s) (hv : s.versionExchanged = true)
    (h0 : φ.kexSent = true) (h1 : φ.kexRecv = true) (h2 : φ.newSent = false) (h3 : φ.secret = false)
    (hg : Good e role s.log (.agreed t)) :
    Post e role (s.deriveKeys e t (e.digest (hashInput t))) (fun s' =>
      KInv e role { φ with secret := true } s' ∧ s'.log = s.log ++ [.agreed t] ∧ s'.versionExchanged = true ∧
      s'.kex = none) := by
  have hn : φ.next (.agreed t) = some { φ with secret := true } := by
    simp [Phase.next, h0, h1, h2, h3, h.alive]
  have hne : ∀ x, e.digest x ≠ [] := by
    intro x hx; have := hd x; rw [hx] at this; simp at this
  have key : s.ks.deriveKeys e.digest (e.digest (hashInput t)) t.secret s.role (s.ks.sessionId == []) =
      some { newKeysIn := keysFor e.digest t.secret (e.digest (hashInput t))
              (sessionIdOf e.digest (s.log ++ [.agreed t])) 1 (wayOf role .incoming)
             newKeysOut := keysFor e.digest t.secret (e.digest (hashInput t))
              (sessionIdOf e.digest (s.log ++ [.agreed t])) 1 (wayOf role .outgoing)
             sessionId := sessionIdOf e.digest (s.log ++ [.agreed t]) } := by
    have hs := h.session
    simp only [KexState.deriveKeys, h.roleEq, pickKeys_eq hd]
    cases hf : firstAgreed s.log with
    | none =>
      have e1 : s.ks.sessionId = [] := by rw [hs]; simp [sessionIdOf, hf]
      simp [e1, sessionIdOf, firstAgreed_snoc, hf]
    | some f =>
      have e1 : s.ks.sessionId = e.digest (hashInput f) := by rw [hs]; simp [sessionIdOf, hf]
      simp [e1, sessionIdOf, firstAgreed_snoc, hf, hne]
  unfold Kx.deriveKeys
  rw [key]
  refine ⟨?_, rfl, hv, rfl⟩
  obtain ⟨a1, a2, a3, a4, a5, a6, a7, a8, a9, a10, a11, a12, a13, a14, a15, a16, a17, a18, a19, a20, a21⟩ := h
  constructor
  all_goals try (simp only [phaseOf_snoc, a2, toldBlocked_snoc, a8, Kx.emit, hasOut_snoc, hasIn_snoc,
    lastAgreed_snoc, lastSent_snoc, lastRecv_snoc, peerVersion_snoc, hn, Option.bind_some, Bool.or_false])
  all_goals try assumption
  · intro hx; apply a12; simpa using hx
  · intro _; exact ⟨t, rfl, rfl, rfl⟩
  · intro hx; rw [hv] at hx; simp at hx
  · exact a21.snoc hg

theorem sendNewKeys_post {e role φ s pre t} (h : KInv e role φ s) (hv : s.versionExchanged = true)
    (hl : s.log = pre ++ [.agreed t]) (hk : s.kex = none)
    (h0 : φ.kexSent = true) (h1 : φ.kexRecv = true) (h2 : φ.newSent = false) (h3 : φ.secret = true)
    (h4 : φ.outSet = false) (h5 : φ.newRecv = false) :
    Post e role s.sendNewKeys (fun s' =>
      Rest e role { φ with newSent := true, outSet := true } s') := by
  unfold Kx.sendNewKeys
  have hg : (!s.flags.kexinitSent || !s.flags.kexinitReceived || s.flags.newkeysSent || s.flags.newkeysReceived) = false := by
    rw [h.fSent, h.fRecv, h.fNewSent, h.fNewRecv, h0, h1, h2, h5]; rfl
  rw [hg]
  simp only [cond_false]
  have hn : φ.next (.sent [MSG_NEWKEYS]) = some { φ with newSent := true } := by
    simp [Phase.next, show isMsg 1 [MSG_NEWKEYS] = false by decide, show isMsg 20 [MSG_NEWKEYS] = false by decide,
      show isMsg 21 [MSG_NEWKEYS] = true by decide, h.alive, h0, h1, h2, h3, h5]
  have hn2 : ∀ a b c, ({ φ with newSent := true } : Phase).next (.installOut a b c) =
      some { φ with newSent := true, outSet := true } := by
    intro a b c; simp [Phase.next, h4, h.alive]
  obtain ⟨a1, a2, a3, a4, a5, a6, a7, a8, a9, a10, a11, a12, a13, a14, a15, a16, a17, a18, a19, a20, a21⟩ := h
  have ev1 : Every (Good e role) (s.log ++ [.sent [MSG_NEWKEYS]]) := a21.snoc ⟨fun _ => ⟨pre, t, hl⟩, fun hx => by simp [isMsg, MSG_NEWKEYS] at hx⟩
  have f1 : s.flags.kexinitSent = true := by rw [a4, h0]
  have f2 : s.flags.newkeysSent = false := by rw [a6, h2]
  have f3 : s.flags.newkeysReceived = false := by rw [a7, h5]
  split
  · refine ⟨⟨⟨{ φ with newSent := true }, ?_⟩, ⟨s.writeBlocked || s.isRekeying, ?_⟩, ?_, ?_⟩, by simp⟩
    · simp only [Kx.emit, phaseOf_snoc, a2, Option.bind_some]; exact hn
    · simp only [Kx.emit, toldBlocked_snoc, a8, Option.bind_some]
    · simp only [Kx.emit, sessionIdOf_snoc _ _ (.sent [MSG_NEWKEYS]) (by simp)]; exact a14
    · exact ev1
  · rename_i c hc
    obtain ⟨p, hp, p1, p2, p3, p4⟩ := a18 h1
    obtain ⟨tt, t1, t2, t3⟩ := a15 h3
    have ev2 := ev1.snoc (x := .installOut
        (findNegotiatedAlgorithm s.role .outgoing allEncryptionAlgorithms s.encC2S s.encS2C)
        (findNegotiatedAlgorithm s.role .outgoing allMacAlgorithms s.macC2S s.macS2C) s.ks.newKeysOut) (by
      refine ⟨⟨tt, ?_, ?_, ?_, s.peerKexinit, p, ?_, hp, ?_, ?_⟩, ⟨s.log, rfl⟩⟩
      · rw [lastAgreed_snoc]; exact t1
      · rw [t3, sessionIdOf_snoc _ _ _ (by simp)]
      · exact congrArg Option.isSome hc
      · rw [lastRecv_snoc]; exact a17 h1
      · rw [a1, p1, p2]
      · rw [a1, p3, p4])
    generalize hen : findNegotiatedAlgorithm s.role .outgoing allEncryptionAlgorithms s.encC2S s.encS2C = en at ev2
    generalize hma : findNegotiatedAlgorithm s.role .outgoing allMacAlgorithms s.macC2S s.macS2C = ma at ev2
    have hreset : ({ s.flags with newkeysSent := true } : KexFlags).resetIfComplete = { s.flags with newkeysSent := true } := by
      simp [KexFlags.resetIfComplete, f3]
    simp only [Kx.emit, hen, hma, hreset]
    have hno : (!s.outputEncrypted && Kx.isEncrypted { s with
        flags := { s.flags with newkeysSent := true }, outputEncrypted := true,
        log := s.log ++ [.sent [MSG_NEWKEYS]] ++ [.installOut en ma s.ks.newKeysOut] }) = false := by
      cases ho : s.outputEncrypted with
      | true => rfl
      | false =>
        have : s.inputEncrypted = false := by
          cases hi : s.inputEncrypted with
          | false => rfl
          | true => have := a11 hi; rw [ho] at this; simp at this
        simp [Kx.isEncrypted, this]
    rw [hno, cond_false, Bool.cond_eq_ite]
    have base : phaseOf (s.log ++ [.sent [MSG_NEWKEYS]] ++ [.installOut en ma s.ks.newKeysOut]) =
        some { φ with newSent := true, outSet := true } := by
      simp only [phaseOf_snoc, a2, Option.bind_some, hn, hn2]
    have told : toldBlocked (s.log ++ [.sent [MSG_NEWKEYS]] ++ [.installOut en ma s.ks.newKeysOut]) =
        some (s.writeBlocked || s.isRekeying) := by
      simp only [toldBlocked_snoc, a8, Option.bind_some]
    split
    · rename_i hb
      replace hb : s.isRekeying = true ∧ s.writeBlocked = false := by simpa using hb
      refine { toKInv := ?_, secretNew := h3, outNew := rfl, noNewRecv := h5, outSetEnc := fun _ => rfl,
               both := fun _ => ⟨h0, h1⟩, kexRecvSent := fun _ => h0, ready := by simp [hk], method := by simp [hk],
               host := by simp [hk], eph := by simp [hk] }
      constructor
      all_goals try (simp only [phaseOf_snoc, base, toldBlocked_snoc, told, hasOut_snoc, hasIn_snoc, next_unblocked,
        lastAgreed_snoc, lastSent_snoc, lastRecv_snoc, peerVersion_snoc, Option.bind_some, Bool.or_false,
        sessionIdOf_snoc _ _ (.sent [MSG_NEWKEYS]) (by simp),
        sessionIdOf_snoc _ _ (.installOut en ma s.ks.newKeysOut) (by simp),
        sessionIdOf_snoc _ _ .unblocked (by simp)])
      all_goals try assumption
      · simp [hb, Kx.isRekeying]
      · simp
      · simp
      · intro hx; apply a12; simpa using hx
      · intro ha; have := a13 ha; simp only [Kx.isEncrypted, Bool.and_eq_true] at this ⊢; exact ⟨this.1, trivial⟩
      · intro hx; rw [hv] at hx; simp at hx
      · exact ev2.snoc trivial
    · rename_i hb
      replace hb : s.isRekeying = true → s.writeBlocked = true := by simpa using hb
      refine { toKInv := ?_, secretNew := h3, outNew := rfl, noNewRecv := h5, outSetEnc := fun _ => rfl,
               both := fun _ => ⟨h0, h1⟩, kexRecvSent := fun _ => h0, ready := by simp [hk], method := by simp [hk],
               host := by simp [hk], eph := by simp [hk] }
      constructor
      all_goals try (simp only [base, told, hasOut_snoc, hasIn_snoc,
        lastAgreed_snoc, lastSent_snoc, lastRecv_snoc, peerVersion_snoc, Option.bind_some, Bool.or_false,
        sessionIdOf_snoc _ _ (.sent [MSG_NEWKEYS]) (by simp),
        sessionIdOf_snoc _ _ (.installOut en ma s.ks.newKeysOut) (by simp)])
      all_goals try assumption
      · congr 1
        revert hb; cases s.isRekeying <;> cases s.writeBlocked <;> simp [Kx.isRekeying]
      · simp
      · simp
      · intro hx; apply a12; simpa using hx
      · intro ha; have := a13 ha; simp only [Kx.isEncrypted, Bool.and_eq_true] at this ⊢; exact ⟨this.1, trivial⟩
      · intro hx; rw [hv] at hx; simp at hx

theorem sendReply_post {e φ s m n hk p pre ceph} (hd : Digest32 e) (h : KInv e .server φ s)
    (hmeth : makeKex (findCommonAlgorithm p.kex allServerKexAlgorithms) = some m)
    (hv : s.versionExchanged = true) (hkex : s.kex = some (m, n)) (hhk : s.hostKey = some hk)
    (hp : parseKexInit.parse s.peerKexinit = some p) (hch : e.chooseHostKey p.hostKey = some (hk, s.hostKeyAlgorithm))
    (hl : s.log = pre ++ [.recv (30 :: ecdhInitBody ceph)])
    (h0 : φ.kexSent = true) (h1 : φ.kexRecv = true) (h2 : φ.newSent = false) (h3 : φ.secret = false)
    (h5 : φ.newRecv = false) :
    Post e .server (s.sendECDHKexInitReply e ceph) (fun s' =>
      KInv e .server { φ with secret := true } s' ∧ (∃ pre t, s'.log = pre ++ [.agreed t]) ∧
      s'.versionExchanged = true ∧ s'.kex = none) := by
  unfold Kx.sendECDHKexInitReply
  have hg : (s.role != .server || !s.flags.kexinitSent || !s.flags.kexinitReceived || s.flags.newkeysSent ||
      s.flags.newkeysReceived) = false := by
    rw [h.roleEq, h.fSent, h.fRecv, h.fNewSent, h.fNewRecv, h0, h1, h2, h5]; rfl
  simp only [hkex, hhk, hg, cond_false]
  split
  · exact ⟨h.safe, by simp⟩
  · rename_i secret hsec
    split
    · exact ⟨h.safe, by simp⟩
    · rename_i sig hsig
      rw [kexHashInput_eq] at hsig ⊢
      refine Post.andThen (Q := fun s' => s' = s.emit (.sent (31 :: ecdhReplyBody (e.hostKeyBlob hk) (e.ephPub m n) sig))) ?_ ?_
      · unfold Kx.sendSer
        split
        · rename_i ser hser
          rw [makeECDHKexInitReply_payload hser]
          exact rfl
        · exact ⟨h.safe, by simp⟩
      · rintro s' rfl
        have hs' := h.sent (p := 31 :: ecdhReplyBody (e.hostKeyBlob hk) (e.ephPub m n) sig) rfl rfl rfl (by simp [h2]) h5
        refine Post.imp (deriveKeys_post hd hs' hv h0 h1 h2 h3 ?_) ?_
        · refine ⟨pre, sig, hk, s.hostKeyAlgorithm, p, ?_, rfl, hsig, hp, hch, rfl, ?_, ?_, ?_, m, n, rfl, hsec, hmeth⟩
          · simp [Kx.emit, hl]
          · have := h.version hv; rw [hl, peerVersion_snoc] at this; exact this
          · have := h.mySent h0; rw [hl, lastSent_snoc] at this; exact this
          · have := h.peerRecv h1; rw [hl, lastRecv_snoc] at this; exact this
        · rintro s'' ⟨g1, g2, g3, g4⟩
          exact ⟨g1, ⟨_, _, g2⟩, g3, g4⟩

/-- The bookkeeping of strict key exchange does not matter here. -/
def Model.Kx.withStrict (s : Kx) (f i : Bool) : Kx := { s with firstPacketWasKexinit := f, ignoreNextKexPacket := i }

theorem Rest.withStrict {e role φ s} (h : Rest e role φ s) (f i : Bool) : Rest e role φ (s.withStrict f i) := by
  obtain ⟨⟨a1, a2, a3, a4, a5, a6, a7, a8, a9, a10, a11, a12, a13, a14, a15, a16, a17, a18, a19, a20, a21⟩, b1, b2, b3, b3', b4, b5, b6, b9, b7, b8⟩ := h
  refine { toKInv := ?_, secretNew := b1, outNew := b2, noNewRecv := b3, outSetEnc := b3', both := b4, kexRecvSent := b5, ready := b6, method := b9, host := b7, eph := b8 }
  constructor <;> assumption

theorem Rest.recv {e role φ s p} (h : Rest e role φ s) (h20 : isMsg 20 p = false)
    (h21 : isMsg 21 p = false) : Rest e role φ (s.emit (.recv p)) := by
  have hk := h.toKInv.recv h20 h21 (fun hh => by rw [h.outNew]; exact hh) h.noNewRecv
  obtain ⟨_, b1, b2, b3, b3', b4, b5, b6, b9, b7, b8⟩ := h
  refine { toKInv := hk, secretNew := b1, outNew := b2, noNewRecv := b3, outSetEnc := b3', both := b4, kexRecvSent := b5, ready := b6, method := b9, host := b7, eph := ?_ }
  intro hr m n hmn
  simp only [emit_log, lastSent_snoc]; exact b8 hr m n hmn

theorem Rest.sent {e role φ s p} (h : Rest e role φ s) (h1 : isMsg 1 p = false) (h20 : isMsg 20 p = false)
    (h21 : isMsg 21 p = false) (h30 : isMsg 30 p = false) : Rest e role φ (s.emit (.sent p)) := by
  have hk := h.toKInv.sent h1 h20 h21 (fun hh => by rw [h.outNew]; exact hh) h.noNewRecv
  obtain ⟨_, b1, b2, b3, b3', b4, b5, b6, b9, b7, b8⟩ := h
  refine { toKInv := hk, secretNew := b1, outNew := b2, noNewRecv := b3, outSetEnc := b3', both := b4, kexRecvSent := b5, ready := b6, method := b9, host := b7, eph := ?_ }
  intro hr m n hmn
  simp only [emit_log, lastSent_snoc, h30]; exact b8 hr m n hmn

theorem kexReady_eq {e role φ s} (h : Rest e role φ s) : s.kexReady = (φ.kexRecv && !φ.newSent) := by
  unfold Kx.kexReady
  rw [← h.ready, h.fSent, h.fRecv, h.fNewSent, h.fNewRecv, h.noNewRecv]
  cases hr : φ.kexRecv with
  | false => simp
  | true => simp [h.kexRecvSent hr]

theorem handleECDHKexInit_post {e role φ s body pre} (hd : Digest32 e) (h : Rest e role φ s)
    (hv : s.versionExchanged = true) (hl : s.log = pre ++ [.recv (30 :: body)]) :
    Post e role (s.handleECDHKexInit e body) (fun s' => ∃ φ', Rest e role φ' s') := by
  unfold Kx.handleECDHKexInit
  cases hr : (s.role != .server) with
  | true => exact ⟨h.safe, by simp⟩
  | false =>
    obtain rfl : role = .server := by rw [← h.roleEq]; simpa using hr
    rw [cond_false, kexReady_eq h]
    cases hrd : (φ.kexRecv && !φ.newSent) with
    | false => exact ⟨h.safe, by simp⟩
    | true =>
      rw [Bool.not_true, cond_false]
      have hsome := h.ready; rw [hrd] at hsome
      simp only [Bool.and_eq_true, Bool.not_eq_true'] at hrd
      split
      · exact ⟨h.safe, by simp⟩
      · rename_i ceph hpar
        obtain rfl := parseECDHKexInit_inv hpar
        obtain ⟨hk, p, k1, k2, k3⟩ := h.host rfl hsome.symm
        obtain ⟨⟨m, n⟩, hmn⟩ := Option.isSome_iff_exists.1 hsome.symm
        obtain ⟨p', k4, k5⟩ := h.method m n hmn
        rw [k2] at k4; cases k4
        rw [if_pos rfl] at k5
        refine Post.andThen (Q := fun s' => ∃ φ', Rest e .server φ' s') ?_ ?_
        · refine Post.andThen (sendReply_post hd h.toKInv k5 hv hmn k1 k2 k3 hl (h.kexRecvSent hrd.1) hrd.1 hrd.2
            (h.secretNew.trans hrd.2) h.noNewRecv) ?_
          rintro s' ⟨g1, ⟨pre', t, g2⟩, g3, g4⟩
          refine Post.imp (sendNewKeys_post g1 g3 g2 g4 (h.kexRecvSent hrd.1) hrd.1 hrd.2 rfl
            (h.outNew.trans hrd.2) h.noNewRecv) ?_
          intro s'' h''; exact ⟨_, h''⟩
        · rintro s' ⟨φ', h'⟩
          cases s'.peerWantsExtInfo with
          | false => exact ⟨φ', h'⟩
          | true =>
            rw [cond_true]
            unfold Kx.sendSer
            split
            · rename_i ser hser
              have hpay : ∃ t, ser.since 5 = 7 :: t := by
                have hw := (Writes.u32 2).bind ((Writes.str (ascii "server-sig-algs")).bind
                  ((Writes.str allPublicKeyAlgorithms).bind ((Writes.str (ascii "agent-forward")).bind
                  (Writes.str (ascii "0")))))
                exact ⟨_, (sinceBegin hw MSG_EXT_INFO hser).1⟩
              obtain ⟨t, ht⟩ := hpay
              rw [ht]
              exact ⟨φ', h'.sent rfl rfl rfl rfl⟩
            · exact ⟨h'.safe, by simp⟩

theorem handleReply_post {e role φ s body pre} (hd : Digest32 e) (h : Rest e role φ s)
    (hv : s.versionExchanged = true) (hl : s.log = pre ++ [.recv (31 :: body)]) :
    Post e role (s.handleECDHKexInitReply e body) (fun s' => ∃ φ', Rest e role φ' s') := by
  unfold Kx.handleECDHKexInitReply
  cases hr : (s.role != .client) with
  | true => exact ⟨h.safe, by simp⟩
  | false =>
    obtain rfl : role = .client := by rw [← h.roleEq]; simpa using hr
    rw [cond_false, kexReady_eq h]
    cases hrd : (φ.kexRecv && !φ.newSent) with
    | false => exact ⟨h.safe, by simp⟩
    | true =>
      rw [Bool.not_true, cond_false]
      have hsome := h.ready; rw [hrd] at hsome
      simp only [Bool.and_eq_true, Bool.not_eq_true'] at hrd
      split
      · exact ⟨h.safe, by simp⟩
      · exact ⟨h.safe, by simp⟩
      · rename_i hnone; rw [hnone] at hsome; simp at hsome
      · rename_i p accepts m n hpar hver hmn
        obtain rfl := parseECDHKexInitReply_inv hpar
        cases hacc : accepts p.hostKeyBlob with
        | false => exact ⟨h.safe, by simp⟩
        | true =>
          simp only [Bool.not_true, cond_false]
          split
          · exact ⟨h.safe, by simp⟩
          · rename_i secret hsec
            rw [kexHashInput_eq]
            cases hvf : e.verify p.hostKeyBlob (e.digest (hashInput ⟨e.ownVersion, s.peerVersion, s.myKexinit,
              s.peerKexinit, p.hostKeyBlob, e.ephPub m n, p.eph, secret⟩)) p.signature with
            | false => exact ⟨h.safe, by simp⟩
            | true =>
              simp only [Bool.not_true, cond_false]
              have h0 := h.kexRecvSent hrd.1
              refine Post.andThen (deriveKeys_post hd h.toKInv hv h0 hrd.1 hrd.2 (h.secretNew.trans hrd.2) ?_) ?_
              · obtain ⟨p', k4, k5⟩ := h.method m n hmn
                rw [if_neg (by decide)] at k5
                refine ⟨pre, p.signature, hl, ⟨accepts, hver, hacc⟩, hvf, rfl, ?_, ?_, ?_, ?_, m, n, p', rfl, hsec, k4, k5⟩
                · have := h.version hv; rw [hl, peerVersion_snoc] at this; exact this
                · have := h.mySent h0; rw [hl, lastSent_snoc] at this; exact this
                · have := h.peerRecv hrd.1; rw [hl, lastRecv_snoc] at this; simpa [isMsg] using this
                · have := h.eph rfl m n hmn; rw [hl, lastSent_snoc] at this; exact this
              · rintro s' ⟨g1, g2, g3, g4⟩
                refine Post.imp (sendNewKeys_post g1 g3 g2 g4 h0 hrd.1 hrd.2 rfl
                  (h.outNew.trans hrd.2) h.noNewRecv) ?_
                intro s'' h''; exact ⟨_, h''⟩

theorem Rest.next_recv {e role φ s} (h : Rest e role φ s) (p : Bytes) : ∃ φ', φ.next (.recv p) = some φ' := by
  have hc : (φ.refused || (φ.newSent && !φ.outSet) || φ.newRecv) = false := by
    rw [h.alive, h.outNew, h.noNewRecv]; cases φ.newSent <;> rfl
  simp only [Phase.next, hc]
  repeat' split
  all_goals first | exact ⟨_, rfl⟩ | simp_all

/-- Whatever is received, the history is good. -/
theorem Rest.recvSafe {e role φ s} (h : Rest e role φ s) (p : Bytes) : Safe e role (s.emit (.recv p)) := by
  obtain ⟨φ', hn⟩ := h.next_recv p
  refine ⟨⟨φ', ?_⟩, ⟨s.writeBlocked || s.isRekeying, ?_⟩, ?_, ?_⟩
  · rw [emit_log, phaseOf_snoc, h.phase, Option.bind_some, hn]
  · rw [emit_log, toldBlocked_snoc, h.told]; rfl
  · show s.ks.sessionId = _
    rw [emit_log, sessionIdOf_snoc _ _ _ (by simp)]; exact h.session
  · rw [emit_log]; exact h.every.snoc (by simp [Good])

theorem handleKexInit_post {e role φ s body} (h : Rest e role φ s) (hv : s.versionExchanged = true) :
    Post e role ((s.emit (.recv (20 :: body))).handleKexInit e body) (fun s' => ∃ φ', Rest e role φ' s') := by
  have hsafe := h.recvSafe (20 :: body)
  unfold Kx.handleKexInit
  simp only
  rw [Bool.cond_eq_ite]
  split
  · exact ⟨hsafe, by simp⟩
  · rename_i hc
    replace hc : φ.kexRecv = false ∧ φ.newSent = false := by
      have e1 := h.fRecv; have e2 := h.fNewSent
      simp [Kx.emit, e1, e2] at hc
      exact hc.1
    split
    · exact ⟨hsafe, by simp⟩
    · rename_i p hp
      generalize hneg : (if (s.emit (.recv (20 :: body))).role = .server then findCommonAlgorithm p.kex allServerKexAlgorithms
        else findCommonAlgorithm allClientKexAlgorithms p.kex) = negotiated
      replace hneg : negotiated = if role = .server then findCommonAlgorithm p.kex allServerKexAlgorithms
        else findCommonAlgorithm allClientKexAlgorithms p.kex := by
          rw [← hneg, ← h.roleEq]; rfl
      split
      · exact ⟨⟨hsafe.phase, hsafe.told, hsafe.session, hsafe.every⟩, by simp⟩
      · rename_i m hm
        have hn : φ.next (.recv (20 :: body)) = some { φ with kexRecv := true } := by
          have hc' : (φ.refused || (φ.newSent && !φ.outSet) || φ.newRecv) = false := by
            rw [h.alive, hc.2, h.noNewRecv]; rfl
          have hn20 : isMsg 20 (20 :: body) = true := rfl
          simp only [Phase.next]
          rw [hc', hn20]
          simp only [Bool.false_eq_true, if_false, if_true]
          rw [if_pos (by rw [hc.1, hc.2]; rfl)]
        have hk : ∀ (a b r r' : Bool) (c : Nat × Nat), KInv e role { φ with kexRecv := true } { s.emit (.recv (20 :: body)) with
            flags := { s.flags with kexinitReceived := true }
            peerKexinit := body
            encC2S := p.encC2S
            encS2C := p.encS2C
            macC2S := p.macC2S
            macS2C := p.macS2C
            kex := some (m, c.1)
            kexes := c.2
            peerWantsExtInfo := a
            peerWantsStrict := b
            inReset := r
            outReset := r' } := by
          intro a b r r' c
          obtain ⟨a1, a2, a3, a4, a5, a6, a7, a8, a9, a10, a11, a12, a13, a14, a15, a16, a17, a18, a19, a20, a21⟩ := h.toKInv
          have hn20 : isMsg 20 (20 :: body) = true := rfl
          constructor
          all_goals try (simp only [emit_log, phaseOf_snoc, a2, toldBlocked_snoc, a8, Kx.emit, hasOut_snoc, hasIn_snoc,
            lastAgreed_snoc, lastSent_snoc, lastRecv_snoc, peerVersion_snoc, hn20, hn, Option.bind_some,
            sessionIdOf_snoc _ _ (.recv (20 :: body)) (by simp), Bool.or_false])
          all_goals try assumption
          · intro hx; apply a12; simpa using hx
          · intro _; rfl
          · intro _; exact ⟨p, hp, rfl, rfl, rfl, rfl⟩
          · intro hx; rw [hv] at hx; simp at hx
          · exact a21.snoc (by simp [Good])
        exact Post.imp (handleKexInit₂_post (m := m) (n := s.kexes) (hk _ _ _ _ (s.kexes, s.kexes + 1)) hv hneg hm rfl hp rfl hc.2 h.noNewRecv (h.secretNew.trans hc.2)
          (h.outNew.trans hc.2)) (fun s' hs' => ⟨_, hs'⟩)

theorem handleNewKeys_post {e role φ s body} (h : Rest e role φ s) (hd : Digest32 e) (hv : s.versionExchanged = true) :
    Post e role (s.emit (.recv (21 :: body))).handleNewKeys (fun s' => ∃ φ', Rest e role φ' s') := by
  have hsafe := h.recvSafe (21 :: body)
  unfold Kx.handleNewKeys
  simp only
  rw [Bool.cond_eq_ite]
  split
  · exact ⟨hsafe, by simp⟩
  · rename_i hc
    replace hc : φ.kexSent = true ∧ φ.kexRecv = true ∧ φ.newSent = true := by
      have e0 := h.fSent; have e1 := h.fRecv; have e2 := h.fNewSent
      simp [Kx.emit, e0, e1, e2] at hc
      exact ⟨hc.1.1.1, hc.1.1.2, hc.1.2⟩
    rw [Bool.cond_eq_ite]
    split
    · exact ⟨⟨hsafe.phase, hsafe.told, hsafe.session, hsafe.every⟩, by simp⟩
    · split
      · exact ⟨⟨hsafe.phase, hsafe.told, hsafe.session, hsafe.every⟩, by simp⟩
      · rename_i c hmk
        have hsec : φ.secret = true := h.secretNew.trans hc.2.2
        have hout : φ.outSet = true := h.outNew.trans hc.2.2
        have hn : φ.next (.recv (21 :: body)) = some { φ with newRecv := true } := by
          have hc' : (φ.refused || (φ.newSent && !φ.outSet) || φ.newRecv) = false := by
            rw [h.alive, hout, h.noNewRecv]; cases φ.newSent <;> rfl
          have hn20 : isMsg 20 (21 :: body) = false := rfl
          have hn21 : isMsg 21 (21 :: body) = true := rfl
          simp only [Phase.next]
          rw [hc', hn20, hn21]
          simp only [Bool.false_eq_true, if_false, if_true]
          rw [if_pos (by rw [hc.2.2, hout]; rfl)]
        obtain ⟨t, k1, k2, k3⟩ := h.keys hsec
        obtain ⟨p, p1, p2, p3, p4, p5⟩ := h.algs hc.2.1
        have hinst : ∀ enc mac ks, enc = findNegotiatedAlgorithm role .incoming allEncryptionAlgorithms s.encC2S s.encS2C →
            mac = findNegotiatedAlgorithm role .incoming allMacAlgorithms s.macC2S s.macS2C →
            ks = s.ks.newKeysIn → makeCipher enc mac = some c → Installed e role .incoming (s.log ++ [.recv (21 :: body)]) enc mac ks := by
          rintro enc mac ks h1 h2 rfl h4
          refine ⟨t, ?_, ?_, by rw [h4]; rfl, s.peerKexinit, p, ?_, p1, ?_, ?_⟩
          · rw [lastAgreed_snoc]; exact k1
          · rw [sessionIdOf_snoc _ _ _ (by simp)]; exact k2
          · have := h.peerRecv hc.2.1
            rw [lastRecv_snoc]; exact this
          · rw [h1, p2, p3]
          · rw [h2, p4, p5]
        have hin : ∀ enc mac ks, ({ φ with newRecv := true } : Phase).next (.installIn enc mac ks) = some {} := by
          intro enc mac ks
          simp [Phase.next, hc.1, hc.2.1, hc.2.2, hsec, hout, h.alive]
        have hout' := h.outSetEnc hout
        have hkn : s.kex.isSome = false := by rw [← h.ready, hc.2.1, hc.2.2]; rfl
        have hrk : s.isRekeying = false := by
          have := h.fNewSent; rw [hc.2.2] at this; simp [Kx.isRekeying, this]
        have hreset : ({ s.flags with newkeysReceived := true } : KexFlags).resetIfComplete = {} := by
          have := h.fNewSent; rw [hc.2.2] at this
          simp [KexFlags.resetIfComplete, this]
        have hrole := h.roleEq
        have hi2 := hinst (findNegotiatedAlgorithm s.role .incoming allEncryptionAlgorithms s.encC2S s.encS2C)
          (findNegotiatedAlgorithm s.role .incoming allMacAlgorithms s.macC2S s.macS2C) s.ks.newKeysIn
          (by rw [hrole]) (by rw [hrole]) rfl hmk
        simp only [Kx.emit] at hmk ⊢
        generalize findNegotiatedAlgorithm s.role .incoming allEncryptionAlgorithms s.encC2S s.encS2C = en at hi2 ⊢
        generalize findNegotiatedAlgorithm s.role .incoming allMacAlgorithms s.macC2S s.macS2C = ma at hi2 ⊢
        simp only [hreset]
        obtain ⟨a1, a2, a3, a4, a5, a6, a7, a8, a9, a10, a11, a12, a13, a14, a15, a16, a17, a18, a19, a20, a21⟩ := h.toKInv
        have ev1 : Every (Good e role) (s.log ++ [.recv (21 :: body)] ++ [.installIn en ma s.ks.newKeysIn]) :=
          (a21.snoc (by simp [Good])).snoc ⟨hi2, s.log, body, rfl⟩
        have base : phaseOf (s.log ++ [.recv (21 :: body)] ++ [.installIn en ma s.ks.newKeysIn]) = some {} := by
          simp only [phaseOf_snoc, a2, Option.bind_some, hn, hin]
        have told : toldBlocked (s.log ++ [.recv (21 :: body)] ++ [.installIn en ma s.ks.newKeysIn]) =
            some s.writeBlocked := by
          simp only [toldBlocked_snoc, a8, Option.bind_some, hrk, Bool.or_false]
        rw [Bool.cond_eq_ite]
        refine ⟨{}, ?_⟩
        split
        · rename_i hb
          replace hb : s.inputEncrypted = false := by
            simp only [Bool.and_eq_true, Bool.not_eq_true'] at hb; exact hb.1
          refine { toKInv := ?_, secretNew := rfl, outNew := rfl, noNewRecv := rfl, outSetEnc := by simp,
                   both := by simp, kexRecvSent := by simp, ready := by simp [hkn],
                   method := by intro m n hmn; have : s.kex = some (m, n) := hmn; rw [this] at hkn; simp at hkn,
                   host := by simp [hkn], eph := ?_ }
          · constructor
            all_goals try (simp only [phaseOf_snoc, base, toldBlocked_snoc, told, hasOut_snoc, hasIn_snoc, next_encrypted,
              lastAgreed_snoc, lastSent_snoc, lastRecv_snoc, peerVersion_snoc, Option.bind_some, Bool.or_false,
              sessionIdOf_snoc _ _ (.recv (21 :: body)) (by simp),
              sessionIdOf_snoc _ _ (.installIn en ma s.ks.newKeysIn) (by simp),
              sessionIdOf_snoc _ _ .encrypted (by simp)])
            all_goals try assumption
            all_goals try (first | rfl | (intro hx; cases hx; done))
            · simp [Kx.isRekeying]
            · simp
            · intro _; exact hout'
            · intro _; trivial
            · intro _; simp [Kx.isEncrypted, hout']
            · intro hx; rw [hv] at hx; simp at hx
            · refine ev1.snoc ⟨?_, ?_, ?_⟩
              · simp only [hasOut_snoc]; rw [← a9, hout']; rfl
              · simp only [hasIn_snoc, Bool.or_true]
              · intro x hx hxe
                have : ∃ x ∈ s.log, x = Entry.encrypted := by
                  subst hxe; refine ⟨_, ?_, rfl⟩; simpa using hx
                rw [a12 this] at hb; simp at hb
          · intro _ m n hmn
            have : s.kex = some (m, n) := hmn
            rw [this] at hkn; simp at hkn
        · rename_i hb
          replace hb : s.inputEncrypted = true := by
            simpa [Kx.isEncrypted, hout'] using hb
          refine { toKInv := ?_, secretNew := rfl, outNew := rfl, noNewRecv := rfl, outSetEnc := by simp,
                   both := by simp, kexRecvSent := by simp, ready := by simp [hkn],
                   method := by intro m n hmn; have : s.kex = some (m, n) := hmn; rw [this] at hkn; simp at hkn,
                   host := by simp [hkn], eph := ?_ }
          · constructor
            all_goals try (simp only [phaseOf_snoc, base, toldBlocked_snoc, told, hasOut_snoc, hasIn_snoc,
              lastAgreed_snoc, lastSent_snoc, lastRecv_snoc, peerVersion_snoc, Option.bind_some, Bool.or_false,
              sessionIdOf_snoc _ _ (.recv (21 :: body)) (by simp),
              sessionIdOf_snoc _ _ (.installIn en ma s.ks.newKeysIn) (by simp)])
            all_goals try assumption
            all_goals try (first | rfl | (intro hx; cases hx; done))
            · simp [Kx.isRekeying]
            · simp
            · intro _; exact hout'
            · intro _; trivial
            · intro _; simp [Kx.isEncrypted, hout']
            · intro hx; rw [hv] at hx; simp at hx
          · intro _ m n hmn
            have : s.kex = some (m, n) := hmn
            rw [this] at hkn; simp at hkn

/-! ### The dispatcher -/

theorem unimplemented_payload {n ser} (h : makeUnimplemented n = .ok ser) : ∃ t, ser.since 5 = 3 :: t := by
  have hw := Writes.u32 n
  exact ⟨_, (sinceBegin hw MSG_UNIMPLEMENTED h).1⟩

/-- The handlers leave the messages of the key exchange alone. -/
def ClaimOk (raw : Bytes) (claim : Claim) : Prop :=
  claim = .unclaimed ∨ raw.head? ∉ [some 20, some 21, some 30, some 31]

theorem handlePacket₂_post {e role φ s msg body claim} (hd : Digest32 e) (h : Rest e role φ s)
    (hv : s.versionExchanged = true) (hc : ClaimOk (msg :: body) claim) :
    Post e role ((s.emit (.recv (msg :: body))).handlePacket₂ e msg body claim) (fun s' => ∃ φ', Rest e role φ' s') := by
  have hsafe := h.recvSafe (msg :: body)
  have hother : msg ≠ 20 → msg ≠ 21 → Rest e role φ (s.emit (.recv (msg :: body))) := by
    intro h1 h2
    exact h.recv (by simp [isMsg, h1]) (by simp [isMsg, h2])
  unfold Kx.handlePacket₂
  cases claim with
  | refused => exact ⟨hsafe, by simp⟩
  | claimed =>
    have h20 : msg ≠ 20 ∧ msg ≠ 21 := by
      simp [ClaimOk] at hc; exact ⟨hc.1, hc.2.1⟩
    exact ⟨φ, hother h20.1 h20.2⟩
  | unclaimed =>
    simp only [Kx.dispatch]
    split
    · split <;> exact ⟨hsafe, by simp⟩
    split
    · rename_i hm; subst hm; exact ⟨φ, hother (by decide) (by decide)⟩
    split
    · rename_i hm; subst hm; exact ⟨φ, hother (by decide) (by decide)⟩
    split
    · rename_i hm; subst hm; exact handleKexInit_post h hv
    split
    · rename_i hm; subst hm; exact handleNewKeys_post h hd hv
    split
    · rename_i hm; subst hm; exact handleECDHKexInit_post hd (hother (by decide) (by decide)) hv rfl
    split
    · rename_i hm; subst hm; exact handleReply_post hd (hother (by decide) (by decide)) hv rfl
    · rename_i h20 h21 _ _
      unfold Kx.sendSer
      split
      · rename_i ser hser
        obtain ⟨t, ht⟩ := unimplemented_payload hser
        rw [ht]
        exact ⟨φ, (hother h20 h21).sent rfl rfl rfl rfl⟩
      · exact ⟨hsafe, by simp⟩

theorem handleRawPacket_post {e role φ s raw claim} (hd : Digest32 e) (h : Rest e role φ s)
    (hv : s.versionExchanged = true) (hc : ClaimOk raw claim) :
    Post e role (s.handleRawPacket e raw claim) (fun s' => ∃ φ', Rest e role φ' s') := by
  have hsafe := h.recvSafe raw
  unfold Kx.handleRawPacket
  cases raw with
  | nil => exact ⟨hsafe, by simp⟩
  | cons msg body =>
    simp only
    unfold Kx.handlePacket
    rw [Bool.cond_eq_ite]; split
    · exact handlePacket₂_post hd h hv hc
    rw [Bool.cond_eq_ite]; split
    · exact handlePacket₂_post (s := s.withStrict (s.firstPacketWasKexinit && msg == MSG_KEXINIT) s.ignoreNextKexPacket)
        hd (h.withStrict _ _) hv hc
    rw [Bool.cond_eq_ite]; split
    · simp only
      rw [Bool.cond_eq_ite]; split
      · rename_i hk
        have h20 : msg ≠ 20 := by rintro rfl; simp [isKex] at hk
        have h21 : msg ≠ 21 := by rintro rfl; simp [isKex] at hk
        exact ⟨φ, (h.withStrict s.firstPacketWasKexinit false).recv (by simp [isMsg, h20]) (by simp [isMsg, h21])⟩
      · exact handlePacket₂_post (s := s.withStrict s.firstPacketWasKexinit false) hd (h.withStrict _ _) hv hc
    rw [Bool.cond_eq_ite]; split
    · exact ⟨hsafe, by simp⟩
    · exact handlePacket₂_post hd h hv hc

theorem Rest.ofSendKexInit {e role φ s s'} (h : Rest e role φ s) (hk : KInv e role { φ with kexSent := true } s')
    (sk : SameKex s s') (h1 : φ.newSent = false) (h2 : φ.kexRecv = false) : Rest e role { φ with kexSent := true } s' := by
  have hkn : s.kex.isSome = false := by rw [← h.ready, h2]; rfl
  have hkn' : s'.kex.isSome = false := by rw [sk.kex]; exact hkn
  refine { hk with
    secretNew := h.secretNew
    outNew := h.outNew
    noNewRecv := h.noNewRecv
    outSetEnc := ?_
    both := by simp [h1]
    kexRecvSent := by simp
    ready := ?_
    method := by intro m n hmn; rw [hmn] at hkn'; simp at hkn'
    host := by simp [hkn']
    eph := ?_ }
  · intro ho
    have := h.outNew; rw [h1] at this
    have ho' : φ.outSet = true := ho
    rw [ho'] at this; simp at this
  · show (φ.kexRecv && !φ.newSent) = _
    rw [h2, hkn']; rfl
  · intro _ m n hmn; rw [hmn] at hkn'; simp at hkn'

theorem initiateRekey_post {e role φ s} (h : Rest e role φ s) (ha : s.authenticated = true) :
    Post e role (s.initiateRekey e) (fun s' => ∃ φ', Rest e role φ' s') := by
  unfold Kx.initiateRekey
  have h1 := h.authEnc ha
  have hg : (!s.isEncrypted || !s.authenticated) = false := by rw [h1, ha]; rfl
  rw [hg, cond_false, Bool.cond_eq_ite]
  split
  · exact ⟨φ, h⟩
  · rename_i hi
    have hi' : s.flags = {} := by
      revert hi; simp only [KexFlags.isIdle]
      cases s.flags with
      | mk a b c d => cases a <;> cases b <;> cases c <;> cases d <;> simp
    have f1 := h.fSent; have f2 := h.fRecv; have f3 := h.fNewSent; have f4 := h.fNewRecv
    rw [hi'] at f1 f2 f3 f4
    have hv : s.versionExchanged = true := by
      cases hv : s.versionExchanged with
      | true => rfl
      | false =>
        have h2 := (h.vFirst hv).2.1
        simp [Kx.isEncrypted, h2] at h1
    refine Post.imp (sendKexInit_post h.toKInv hv f1.symm f3.symm f4.symm) ?_
    rintro s' ⟨g1, g2⟩
    exact ⟨_, h.ofSendKexInit g1 g2 f3.symm f2.symm⟩

theorem setAuthenticated_post {e role φ s} (h : Rest e role φ s) (ha : (s.isEncrypted && !s.authenticated) = true) :
    Post e role s.setAuthenticated (fun s' => ∃ φ', Rest e role φ' s') := by
  unfold Kx.setAuthenticated
  have h1 : s.isEncrypted = true := by simp only [Bool.and_eq_true] at ha ⊢; exact ha.1
  have hg : (!s.isEncrypted || s.authenticated) = false := by
    rw [h1]; simp only [Bool.and_eq_true, Bool.not_eq_true'] at ha; simp [ha.2]
  rw [hg, cond_false]
  refine ⟨φ, ?_⟩
  obtain ⟨⟨a1, a2, a3, a4, a5, a6, a7, a8, a9, a10, a11, a12, a13, a14, a15, a16, a17, a18, a19, a20, a21⟩, b1, b2, b3, b3', b4, b5, b6, b9, b7, b8⟩ := h
  refine { toKInv := ?_, secretNew := b1, outNew := b2, noNewRecv := b3, outSetEnc := b3', both := b4, kexRecvSent := b5, ready := b6, method := b9, host := b7, eph := b8 }
  constructor
  all_goals try assumption
  intro _; exact h1

/-- A notification. -/
theorem Rest.notify {e role φ s x} (h : Rest e role φ s) (b : Bool) (hx : x = .blocked ∨ x = .unblocked)
    (ht : toldBlocked (s.log ++ [x]) = some (b || s.isRekeying)) :
    Rest e role φ ({ s with writeBlocked := b }.emit x) := by
  obtain ⟨⟨a1, a2, a3, a4, a5, a6, a7, a8, a9, a10, a11, a12, a13, a14, a15, a16, a17, a18, a19, a20, a21⟩, b1, b2, b3, b3', b4, b5, b6, b9, b7, b8⟩ := h
  have hno : ∀ t, x ≠ .agreed t := by rcases hx with rfl | rfl <;> simp
  refine { toKInv := ?_, secretNew := b1, outNew := b2, noNewRecv := b3, outSetEnc := b3', both := b4, kexRecvSent := b5, ready := b6, method := b9, host := b7, eph := ?_ }
  · constructor
    all_goals try (simp only [emit_log, Kx.emit, sessionIdOf_snoc _ _ _ hno])
    all_goals try assumption
    · rw [phaseOf_snoc, a2]; rcases hx with rfl | rfl <;> rfl
    · rw [hasOut_snoc]; rcases hx with rfl | rfl <;> simpa using a9
    · rw [hasIn_snoc]; rcases hx with rfl | rfl <;> simpa using a10
    · intro hh; apply a12; rcases hx with rfl | rfl <;> simpa using hh
    · rcases hx with rfl | rfl <;> simpa only [lastAgreed_snoc] using a15
    · rcases hx with rfl | rfl <;> simpa only [lastSent_snoc] using a16
    · rcases hx with rfl | rfl <;> simpa only [lastRecv_snoc] using a17
    · rcases hx with rfl | rfl <;> simpa only [peerVersion_snoc] using a19
    · rcases hx with rfl | rfl <;> simpa only [peerVersion_snoc] using a20
    · exact a21.snoc (by rcases hx with rfl | rfl <;> simp [Good])
  · intro hr m n hmn
    rcases hx with rfl | rfl <;> simpa only [emit_log, lastSent_snoc] using b8 hr m n hmn

theorem Rest.quiet {e role φ s} (h : Rest e role φ s) (b : Bool)
    (ht : (b || s.isRekeying) = (s.writeBlocked || s.isRekeying)) :
    Rest e role φ { s with writeBlocked := b } := by
  obtain ⟨⟨a1, a2, a3, a4, a5, a6, a7, a8, a9, a10, a11, a12, a13, a14, a15, a16, a17, a18, a19, a20, a21⟩, b1, b2, b3, b3', b4, b5, b6, b9, b7, b8⟩ := h
  refine { toKInv := ?_, secretNew := b1, outNew := b2, noNewRecv := b3, outSetEnc := b3', both := b4, kexRecvSent := b5, ready := b6, method := b9, host := b7, eph := b8 }
  constructor
  all_goals try assumption
  rw [a8, ← ht]

theorem onBufferedWrite_rest {e role φ s} (h : Rest e role φ s) (more : Bool) : Rest e role φ (s.onBufferedWrite more) := by
  unfold Kx.onBufferedWrite
  have ht := h.told
  have hr : Kx.isRekeying { s with writeBlocked := false } = s.isRekeying := rfl
  simp only
  rw [hr]
  have step1 : Rest e role φ (bif s.writeBlocked && !s.isRekeying then Kx.emit { s with writeBlocked := false } .unblocked
      else { s with writeBlocked := false }) := by
    cases hw : s.writeBlocked with
    | false => exact h.quiet false (by rw [hw])
    | true =>
      cases hk : s.isRekeying with
      | true => exact h.quiet false (by rw [hw, hk]; rfl)
      | false =>
        refine h.notify false (.inr rfl) ?_
        rw [toldBlocked_snoc, ht, hw, hk]; rfl
  have hw1 : (bif s.writeBlocked && !s.isRekeying then Kx.emit { s with writeBlocked := false } .unblocked
      else { s with writeBlocked := false }).writeBlocked = false := by
    cases s.writeBlocked && !s.isRekeying <;> rfl
  generalize (bif s.writeBlocked && !s.isRekeying then Kx.emit { s with writeBlocked := false } .unblocked
      else { s with writeBlocked := false }) = s1 at step1 hw1
  cases more with
  | false => exact step1
  | true =>
    have hr : Kx.isRekeying { s1 with writeBlocked := true } = s1.isRekeying := rfl
    simp only [cond_true]
    rw [hr]
    cases hk : s1.isRekeying with
    | true => exact step1.quiet true (by rw [hk, hw1]; rfl)
    | false =>
      refine step1.notify true (.inl rfl) ?_
      rw [toldBlocked_snoc, step1.told, hw1, hk]; rfl

theorem onVersion_post {e role φ s} (h : Rest e role φ s) (hv : s.versionExchanged = false) (v : Bytes) :
    Post e role (s.onVersion e v) (fun s' => ∃ φ', Rest e role φ' s') := by
  obtain ⟨rfl, hnoout, _⟩ := h.vFirst hv
  have h' : Rest e role {} ({ s with peerVersion := v, versionExchanged := true }.emit (.version v)) := by
    obtain ⟨⟨a1, a2, a3, a4, a5, a6, a7, a8, a9, a10, a11, a12, a13, a14, a15, a16, a17, a18, a19, a20, a21⟩, b1, b2, b3, b3', b4, b5, b6, b9, b7, b8⟩ := h
    refine { toKInv := ?_, secretNew := b1, outNew := b2, noNewRecv := b3, outSetEnc := b3', both := b4, kexRecvSent := b5, ready := b6, method := b9, host := b7, eph := ?_ }
    · constructor
      all_goals try (simp only [emit_log, Kx.emit, phaseOf_snoc, a2, toldBlocked_snoc, a8, hasOut_snoc, hasIn_snoc,
        lastAgreed_snoc, lastSent_snoc, lastRecv_snoc, peerVersion_snoc, Option.bind_some, Bool.or_false,
        sessionIdOf_snoc _ _ (.version v) (by simp)])
      all_goals try assumption
      · rfl
      · intro hx; apply a12; simpa using hx
      · intro hx; cases hx
      · intro _; trivial
      · exact a21.snoc (by simp [Good])
    · intro hr m n hmn
      simp only [emit_log, lastSent_snoc]; exact b8 hr m n hmn
  unfold Kx.onVersion
  simp only
  rw [Bool.cond_eq_ite]
  split
  · refine Post.imp (sendKexInit_post h'.toKInv rfl rfl rfl rfl) ?_
    rintro s' ⟨g1, g2⟩
    exact ⟨_, h'.ofSendKexInit g1 g2 rfl rfl⟩
  · exact ⟨_, h'⟩

/-! ### Runs -/

/-- The handlers leave the messages of the key exchange alone. -/
def EventOk : KxEvent → Prop
  | .packet raw claim => ClaimOk raw claim
  | _ => True

/-- Invariant of a connection. -/
def SysInv (e : KexEnv) (role : Role) (y : KxSys) : Prop :=
  match y.stop with
  | none => ∃ φ, Rest e role φ y.kx
  | some x => Safe e role y.kx ∧ x ≠ .assertFailed

theorem SysInv.finish {e role r} (h : Post e role r (fun s' => ∃ φ', Rest e role φ' s')) : SysInv e role (.finish r) := by
  obtain ⟨s, x⟩ := r
  unfold KxSys.finish
  cases x with
  | none => exact h
  | some x =>
    cases x with
    | assertFailed => exact absurd rfl h.2
    | closed => exact h
    | disconnect =>
      obtain ⟨⟨⟨φ, h1⟩, ⟨b, h2⟩, h3, h4⟩, h5⟩ := h
      refine ⟨⟨⟨{ φ with refused := true }, ?_⟩, ⟨b, ?_⟩, ?_, ?_⟩, by simp⟩
      · simp only [emit_log, phaseOf_snoc, h1]; rfl
      · simp only [emit_log, toldBlocked_snoc, h2]; rfl
      · simp only [emit_log, sessionIdOf_snoc _ _ (.sent [MSG_DISCONNECT]) (by simp)]; exact h3
      · exact h4.snoc ⟨fun hx => absurd hx (by decide), fun hx => absurd hx (by decide)⟩

theorem SysInv.step {e role y ev} (hd : Digest32 e) (h : SysInv e role y) (hev : EventOk ev) : SysInv e role (y.step e ev) := by
  unfold KxSys.step
  obtain ⟨s, stop⟩ := y
  cases stop with
  | some x => exact h
  | none =>
    obtain ⟨φ, h⟩ := h
    have hsame : SysInv e role ⟨s, none⟩ := ⟨φ, h⟩
    cases ev with
    | version v =>
      simp only
      cases hv : s.versionExchanged with
      | true => exact hsame
      | false => exact SysInv.finish (onVersion_post h hv v)
    | packet raw claim =>
      simp only
      cases hv : s.versionExchanged with
      | false => exact hsame
      | true => exact SysInv.finish (handleRawPacket_post hd h hv hev)
    | authenticated =>
      simp only
      cases ha : s.isEncrypted && !s.authenticated with
      | false => exact hsame
      | true => exact SysInv.finish (setAuthenticated_post h ha)
    | rekeyTimer =>
      simp only
      cases ha : s.authenticated with
      | false => exact hsame
      | true => exact SysInv.finish (initiateRekey_post h ha)
    | writable more => exact ⟨φ, onBufferedWrite_rest h more⟩

theorem SysInv.init (e : KexEnv) (role : Role) : SysInv e role (.init role) := by
  refine ⟨{}, ?_⟩
  refine { toKInv := ?_, secretNew := rfl, outNew := rfl, noNewRecv := rfl, outSetEnc := by simp, both := by simp,
           kexRecvSent := by simp, ready := rfl, method := by simp [KxSys.init], host := by simp [KxSys.init], eph := by simp [KxSys.init] }
  constructor
  all_goals first | rfl | simp [KxSys.init]
  · rfl
  · exact Every.nil

theorem SysInv.run {e role y evs} (hd : Digest32 e) (h : SysInv e role y) (hev : ∀ ev ∈ evs, EventOk ev) :
    SysInv e role (y.run e evs) := by
  unfold KxSys.run
  induction evs generalizing y with
  | nil => exact h
  | cons ev evs ih =>
    exact ih (h.step hd (hev ev (by simp))) (fun x hx => hev x (by simp [hx]))

end Lukko
