import Verif.Proof.PairKex
/-
  Agreement and new keys on one side of a pair.
-/
namespace Lukko
open Spec Model

theorem sendNewKeys_exact {s : Kx} (hf : s.flags = ⟨true, true, false, false⟩)
    (ha : s.encC2S = allEncryptionAlgorithms ∧ s.encS2C = allEncryptionAlgorithms ∧
      s.macC2S = allMacAlgorithms ∧ s.macS2C = allMacAlgorithms) :
    ∃ x, Unheard x ∧ s.sendNewKeys = ({ s with
      flags := ⟨true, true, true, false⟩
      outputEncrypted := true
      log := s.log ++ ([.sent [21], .installOut pairEnc pairMac s.ks.newKeysOut] ++ x) }, none) := by
  obtain ⟨a1, a2, a3, a4⟩ := ha
  unfold Kx.sendNewKeys
  rw [show (!s.flags.kexinitSent || !s.flags.kexinitReceived || s.flags.newkeysSent || s.flags.newkeysReceived) = false by
    simp [hf]]
  simp only [cond_false, Kx.emit, a1, a2, a3, a4, pair_enc, pair_mac, pair_cipher, hf, KexFlags.resetIfComplete,
    Bool.and_false, cond_false]
  simp only [Kx.isRekeying, Kx.isEncrypted, hf]
  cases h1 : s.outputEncrypted <;> cases h2 : s.inputEncrypted <;> cases h3 : s.writeBlocked
  case false.true.false => exact ⟨[.encrypted], ⟨rfl, rfl, rfl, rfl, rfl⟩, by simp [h2, h3]⟩
  case false.true.true => exact ⟨[.encrypted], ⟨rfl, rfl, rfl, rfl, rfl⟩, by simp [h2, h3]⟩
  case true.true.false => exact ⟨[.unblocked], ⟨rfl, rfl, rfl, rfl, rfl⟩, by simp [h1, h2, h3]⟩
  case true.false.false => exact ⟨[.unblocked], ⟨rfl, rfl, rfl, rfl, rfl⟩, by simp [h1, h2, h3]⟩
  all_goals exact ⟨[], ⟨rfl, rfl, rfl, rfl, rfl⟩, by simp [h2, h3]⟩

theorem deriveKeys_exact {e : KexEnv} {s : Kx} {t : Transcript} (hd : ∀ x, (e.digest x).length = 32)
    (hs : s.ks.sessionId = sessionOf e.digest (agreements s.log)) :
    s.deriveKeys e t (e.digest (hashInput t)) = ({ s with
      ks := {
        newKeysIn := keysFor e.digest t.secret (e.digest (hashInput t)) (sessionOf e.digest (agreements s.log ++ [t])) 1
          (wayOf s.role .incoming)
        newKeysOut := keysFor e.digest t.secret (e.digest (hashInput t)) (sessionOf e.digest (agreements s.log ++ [t])) 1
          (wayOf s.role .outgoing)
        sessionId := sessionOf e.digest (agreements s.log ++ [t]) }
      kex := none
      log := s.log ++ [.agreed t] }, none) := by
  have hne : ∀ x, e.digest x ≠ [] := by intro x hx; have := hd x; rw [hx] at this; simp at this
  unfold Kx.deriveKeys KexState.deriveKeys
  cases ha : agreements s.log with
  | nil =>
    rw [hs, ha]
    simp [sessionOf, Kx.emit, pickKeys_eq hd]
  | cons a l =>
    have h2 : s.ks.sessionId ≠ [] := by rw [hs, ha]; exact hne _
    have h3 : (s.ks.sessionId == []) = false := by simpa using h2
    rw [h3]
    simp only [Bool.false_eq_true, if_false, h2, Option.map_some]
    rw [hs, ha]
    simp [sessionOf, Kx.emit, pickKeys_eq hd]

/-- The state of the keys after an agreement. -/
def keysAfter (digest : Bytes → Bytes) (role : Role) (ts : List Transcript) (t : Transcript) : KexState where
  newKeysIn := keysFor digest t.secret (digest (hashInput t)) (sessionOf digest (ts ++ [t])) 1 (wayOf role .incoming)
  newKeysOut := keysFor digest t.secret (digest (hashInput t)) (sessionOf digest (ts ++ [t])) 1 (wayOf role .outgoing)
  sessionId := sessionOf digest (ts ++ [t])

/-- The facts about a side after an agreement. -/
structure GotKeys (e : KexEnv) (t : Transcript) (raw : Bytes) (replies : List Bytes) (s s' : Kx) : Prop where
  roleEq : s'.role = s.role
  flags : s'.flags = ⟨true, true, true, false⟩
  vx : s'.versionExchanged = s.versionExchanged
  peer : s'.peerVersion = s.peerVersion
  first : s'.firstPacketWasKexinit = s.firstPacketWasKexinit
  ign : s'.ignoreNextKexPacket = s.ignoreNextKexPacket
  my : s'.myKexinit = s.myKexinit
  peerKexinit : s'.peerKexinit = s.peerKexinit
  encC2S : s'.encC2S = s.encC2S
  encS2C : s'.encS2C = s.encS2C
  macC2S : s'.macC2S = s.macC2S
  macS2C : s'.macS2C = s.macS2C
  ext : s'.peerWantsExtInfo = s.peerWantsExtInfo
  outEnc : s'.outputEncrypted = true
  inEnc : s'.inputEncrypted = s.inputEncrypted
  auth : s'.authenticated = s.authenticated
  ks : s'.ks = keysAfter e.digest s.role (agreements s.log) t
  log : ∃ x, Unheard x ∧ s'.log = s.log ++ ([.recv raw] ++ (replies.map .sent ++ ([.agreed t, .sent [21],
    .installOut pairEnc pairMac (keysAfter e.digest s.role (agreements s.log) t).newKeysOut] ++ x)))

theorem derive_newKeys {e : KexEnv} {s u : Kx} {t : Transcript} {raw : Bytes} {replies : List Bytes} (hd : ∀ x, (e.digest x).length = 32)
    (hs : s.ks.sessionId = sessionOf e.digest (agreements s.log)) (hf : s.flags = ⟨true, true, false, false⟩)
    (ha : s.encC2S = allEncryptionAlgorithms ∧ s.encS2C = allEncryptionAlgorithms ∧
      s.macC2S = allMacAlgorithms ∧ s.macS2C = allMacAlgorithms)
    (hu : u = { s with log := s.log ++ ([.recv raw] ++ replies.map .sent) }) :
    ∃ s', (u.deriveKeys e t (e.digest (hashInput t))).andThen (fun s => s.sendNewKeys) = (s', none) ∧
      GotKeys e t raw replies s s' := by
  subst hu
  have hag : agreements (s.log ++ ([.recv raw] ++ replies.map .sent)) = agreements s.log := by
    have : ∀ l : List Bytes, agreements (l.map .sent) = [] := by
      intro l; induction l with
      | nil => rfl
      | cons a l ih => simpa [agreements] using ih
    rw [agreements_append, agreements_append, this]; simp [agreements]
  rw [deriveKeys_exact hd (by rw [hag]; exact hs)]
  simp only [KRes.andThen, hag]
  obtain ⟨x, hx, he⟩ := sendNewKeys_exact (s := { s with
      ks := keysAfter e.digest s.role (agreements s.log) t
      kex := none
      log := s.log ++ ([.recv raw] ++ replies.map .sent) ++ [.agreed t] }) hf ha
  refine ⟨_, he, ?_⟩
  constructor
  case log => exact ⟨x, hx, by simp⟩
  all_goals rfl

theorem proj_sents (l : List Bytes) : received (l.map .sent) = [] ∧ agreements (l.map .sent) = [] ∧
    outCiphers (l.map .sent) = [] ∧ inCiphers (l.map .sent) = [] ∧ sentPackets (l.map .sent) = l := by
  induction l with
  | nil => exact ⟨rfl, rfl, rfl, rfl, rfl⟩
  | cons a l ih =>
    obtain ⟨h1, h2, h3, h4, h5⟩ := ih
    refine ⟨by simpa [received] using h1, by simpa [agreements] using h2, by simpa [outCiphers] using h3,
      by simpa [inCiphers] using h4, by simpa [sentPackets] using h5⟩

theorem GotKeys.proj {e t raw replies s s'} (h : GotKeys e t raw replies s s') :
    received s'.log = received s.log ++ [raw] ∧ agreements s'.log = agreements s.log ++ [t] ∧
    outCiphers s'.log = outCiphers s.log ++ [(pairEnc, pairMac, (keysAfter e.digest s.role (agreements s.log) t).newKeysOut)] ∧
    inCiphers s'.log = inCiphers s.log ∧ sentPackets s'.log = sentPackets s.log ++ (replies ++ [[21]]) := by
  obtain ⟨x, hx, hl⟩ := h.log
  obtain ⟨h1, h2, h3, h4, h5⟩ := proj_sents replies
  rw [hl]
  refine ⟨?_, ?_, ?_, ?_, ?_⟩
  · simp only [received_app, hx.recv, h1]; simp [received]
  · simp only [agreements_append, hx.agreed, h2]; simp [agreements]
  · simp only [outCiphers_append, hx.outs, h3]; simp [outCiphers]
  · simp only [inCiphers_append, hx.ins, h4]; simp [inCiphers]
  · simp only [sentPackets_app, hx.sent, h5]; simp [sentPackets]

theorem GotKeys.side {e pv hk alg role t raw replies s s'} (g : GotKeys e t raw replies s s') (h : PairSide e pv hk alg role s)
    (hf : s.flags = ⟨true, true, false, false⟩) (hv : s.versionExchanged = true) (hrep : ∀ p ∈ replies, isMsg 20 p = false)
    (hraw : isMsg 21 raw = false) (hrep' : ∀ p ∈ replies, isMsg 21 p = false) :
    PairSide e pv hk alg role s' := by
  obtain ⟨hrc, ha, ho, hi, hs⟩ := g.proj
  have hrole := h.roleEq
  have hal := h.algs (by rw [hf])
  have hex := h.ext (by rw [hf])
  constructor
  all_goals try simp only [ha, ho, hi, g.flags, g.vx, g.outEnc, g.inEnc, g.auth, g.ks, g.roleEq, g.first, g.ign, g.peer, g.my,
    g.encC2S, g.encS2C, g.macC2S, g.macS2C, g.ext]
  · exact h.roleEq
  · exact fun h => ⟨trivial, trivial⟩
  · exact fun _ => trivial
  · intro hh; rw [hv] at hh; exact absurd hh (by decide)
  · intro _ _; exact .inl trivial
  · exact h.peer
  · exact h.first
  · exact h.ign
  · exact fun _ => h.my (by rw [hf])
  · exact fun _ => hal
  · exact fun _ => hex
  · intro _ hh; exact absurd hh (by decide)
  · intro _ _ hh; exact absurd hh (by decide)
  · simp
  · have := h.inEnc; rw [hf] at this; simpa [doneOf] using this
  · simp
  · have := h.auth; simp only [Kx.isEncrypted, g.outEnc, g.inEnc, Bool.and_true] at this ⊢
    intro hh; have := this hh; simp only [Bool.and_eq_true] at this; exact this.1
  · rfl
  · intro ts t' _ hh
    have := List.append_inj' hh rfl
    obtain ⟨h1, h2⟩ := this
    cases h2; subst h1
    rw [← hrole]
    rfl
  · rw [ciphersOf_snoc, h.outs, hrole]; rfl
  · have := h.ins; rw [hf] at this; simpa [doneOf] using this
  · have hc := h.count
    rw [hs]
    simp only [hf] at hc
    simp only [kexInits, List.countP_append] at hc ⊢
    rw [hc]
    have : List.countP (isMsg 20) replies = 0 := by
      rw [List.countP_eq_zero]; intro p hp; simp [hrep p hp]
    simp [this, isMsg]
  · obtain ⟨x, hx, hl⟩ := g.log
    rw [hl]
    refine h.paired.append (.append (.quiet (by simp [quietEntry, hraw])) (.append (.quiet ?_) (.append ?_ hx.paired)))
    · rw [List.all_map]; exact List.all_eq_true.2 fun p hp => by simp [quietEntry, hrep' p hp]
    · exact .other rfl (.out rfl .nil)

/-- The server receives the client's ephemeral key. -/
theorem handleECDHKexInit_pair {e pv hk alg s} (hd : ∀ x, (e.digest x).length = 32) (h : PairSide e pv hk alg .server s)
    (hf : s.flags = ⟨true, true, false, false⟩) (hv : s.versionExchanged = true) {ceph sec sig : Bytes} {n : Nat}
    (hn : s.kex = some (.curve25519, n)) (hlen : ceph.length < 2 ^ 32)
    (hfit : 6 + (ecdhReplyBody (e.hostKeyBlob hk) (e.ephPub .curve25519 n) sig).length ≤ BUFFER_SIZE)
    (hb : (e.hostKeyBlob hk).length < 2 ^ 32) (hse : (e.ephPub .curve25519 n).length < 2 ^ 32) (hsl : sig.length < 2 ^ 32)
    (hsec : e.shared .curve25519 n ceph = some sec) {t : Transcript}
    (ht : t = {
      clientVersion := pv, serverVersion := e.ownVersion, clientKexinit := s.peerKexinit,
      serverKexinit := s.myKexinit, hostKey := e.hostKeyBlob hk, clientEph := ceph,
      serverEph := e.ephPub .curve25519 n, secret := sec })
    (hsig : e.sign hk (e.digest (hashInput t)) alg = some sig) :
    ∃ s', s.handleRawPacket e (30 :: ecdhInitBody ceph) .unclaimed = (s', none) ∧
      GotKeys e t (30 :: ecdhInitBody ceph) [31 :: ecdhReplyBody (e.hostKeyBlob hk) (e.ephPub .curve25519 n) sig] s s' := by
  have hrole := h.roleEq
  have hpeer := h.peer hv
  obtain ⟨hhk, halg⟩ := h.host rfl (by rw [hf]) (by rw [hf])
  have hpre := (C05_ecdh_init ceph hlen).2.parse
  have hbuild := (C05_ecdh_reply (e.hostKeyBlob hk) (e.ephPub .curve25519 n) sig hb hse hsl).1
  unfold Builds at hbuild
  rw [if_pos hfit] at hbuild
  have hext := h.ext (by rw [hf])
  rw [handleRaw_dispatch h.first h.ign (.inr (.inr ⟨by rw [hf], by rw [hrole]; decide⟩))]
  unfold Kx.dispatch
  rw [if_neg (by decide), if_neg (by decide), if_neg (by decide), if_neg (by decide), if_neg (by decide), if_pos (by rfl)]
  unfold Kx.handleECDHKexInit
  rw [show ((s.emit (.recv (30 :: ecdhInitBody ceph))).role != .server) = false by simp [Kx.emit, hrole],
    show (!(s.emit (.recv (30 :: ecdhInitBody ceph))).kexReady) = false by simp [Kx.emit, Kx.kexReady, hf, hn]]
  simp only [cond_false]
  rw [hpre]
  simp only
  have hin : kexHashInput s.peerVersion e.ownVersion s.peerKexinit s.myKexinit (e.hostKeyBlob hk) ceph
      (e.ephPub .curve25519 n) sec = hashInput t := by rw [kexHashInput_eq, ht, hpeer]
  have hreply : (s.emit (.recv (30 :: ecdhInitBody ceph))).sendECDHKexInitReply e ceph =
      ({ s with log := s.log ++ ([.recv (30 :: ecdhInitBody ceph)] ++
        List.map .sent [31 :: ecdhReplyBody (e.hostKeyBlob hk) (e.ephPub .curve25519 n) sig]) } : Kx).deriveKeys e t
        (e.digest (hashInput t)) := by
    unfold Kx.sendECDHKexInitReply
    simp only [Kx.emit, hn, hhk]
    rw [show (s.role != .server || !s.flags.kexinitSent || !s.flags.kexinitReceived || s.flags.newkeysSent ||
        s.flags.newkeysReceived) = false by simp [hrole, hf]]
    simp only [cond_false, hsec, hin, halg, hsig]
    rw [hbuild]
    simp only [Kx.sendSer, Kx.emit, Ser.since, KRes.andThen, hpeer, ← ht]
    simp [Kx.emit]
  rw [hreply]
  obtain ⟨s', he, g⟩ := derive_newKeys (t := t) hd h.sid hf (h.algs (by rw [hf])) rfl
    (raw := 30 :: ecdhInitBody ceph) (replies := [31 :: ecdhReplyBody (e.hostKeyBlob hk) (e.ephPub .curve25519 n) sig])
  rw [he]
  simp only [KRes.andThen]
  rw [g.ext, hext]
  exact ⟨s', rfl, g⟩

/-- The client receives the server's answer. -/
theorem handleReply_pair {e pv hk alg s} (hd : ∀ x, (e.digest x).length = 32) (h : PairSide e pv hk alg .client s)
    (hf : s.flags = ⟨true, true, false, false⟩) (hv : s.versionExchanged = true) {blob seph sec sig : Bytes} {n : Nat}
    (hn : s.kex = some (.curve25519, n))
    (hb : blob.length < 2 ^ 32) (hse : seph.length < 2 ^ 32) (hsl : sig.length < 2 ^ 32)
    (hacc : ∃ accepts, e.verifier = some accepts ∧ accepts blob = true)
    (hsec : e.shared .curve25519 n seph = some sec) {t : Transcript}
    (ht : t = {
      clientVersion := e.ownVersion, serverVersion := pv, clientKexinit := s.myKexinit,
      serverKexinit := s.peerKexinit, hostKey := blob, clientEph := e.ephPub .curve25519 n,
      serverEph := seph, secret := sec })
    (hver : e.verify blob (e.digest (hashInput t)) sig = true) :
    ∃ s', s.handleRawPacket e (31 :: ecdhReplyBody blob seph sig) .unclaimed = (s', none) ∧
      GotKeys e t (31 :: ecdhReplyBody blob seph sig) [] s s' := by
  have hrole := h.roleEq
  have hpeer := h.peer hv
  obtain ⟨accepts, hver1, hver2⟩ := hacc
  have hpre := (C05_ecdh_reply blob seph sig hb hse hsl).2.parse
  rw [handleRaw_dispatch h.first h.ign (.inr (.inr ⟨by rw [hf], by rw [hrole]; decide⟩))]
  unfold Kx.dispatch
  rw [if_neg (by decide), if_neg (by decide), if_neg (by decide), if_neg (by decide), if_neg (by decide),
    if_neg (by decide), if_pos (by rfl)]
  unfold Kx.handleECDHKexInitReply
  rw [show ((s.emit (.recv (31 :: ecdhReplyBody blob seph sig))).role != .client) = false by simp [Kx.emit, hrole],
    show (!(s.emit (.recv (31 :: ecdhReplyBody blob seph sig))).kexReady) = false by simp [Kx.emit, Kx.kexReady, hf, hn]]
  simp only [cond_false]
  rw [hpre, hver1]
  have hin : kexHashInput e.ownVersion s.peerVersion s.myKexinit s.peerKexinit blob (e.ephPub .curve25519 n)
      seph sec = hashInput t := by rw [kexHashInput_eq, ht, hpeer]
  obtain ⟨s', he, g⟩ := derive_newKeys (t := t) hd h.sid hf (h.algs (by rw [hf])) rfl
    (raw := 31 :: ecdhReplyBody blob seph sig) (replies := [])
  refine ⟨s', ?_, g⟩
  rw [← he]
  have hn' : (s.emit (.recv (31 :: ecdhReplyBody blob seph sig))).kex = some (.curve25519, n) := hn
  rw [hn']
  simp only [hver2, Bool.not_true, cond_false, hsec]
  rw [← hpeer] at ht
  simp only [Kx.emit, hin, hver, Bool.not_true, cond_false, ← ht]
  simp

end Lukko
