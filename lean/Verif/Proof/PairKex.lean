import Verif.Proof.PairSide
/-
  The functions of one side of a pair.
-/
namespace Lukko
open Spec Model

theorem sendKexInit_exact {e : KexEnv} {s : Kx} {role : Role} (hr : s.role = role) (hf : PairFits e role)
    (h1 : s.flags.kexinitSent = false) (h2 : s.flags.newkeysSent = false) (h3 : s.flags.newkeysReceived = false) :
    ∃ x, Unheard x ∧ s.sendKexInit e = ({ s with
      myKexinit := kexBody e role s.cookies
      cookies := s.cookies + 1
      flags := { s.flags with kexinitSent := true }
      log := s.log ++ (x ++ [.sent (20 :: kexBody e role s.cookies)]) }, none) := by
  obtain ⟨⟨ser, hs, h5, h6⟩, _⟩ := kexBody_fits hf s.cookies
  unfold Kx.sendKexInit
  simp only [h1, h2, h3, Bool.or_false, cond_false]
  rw [hr, hs]
  simp only [h5, h6]
  cases hb : (s.outputEncrypted && true && !s.flags.newkeysSent && !s.writeBlocked) with
  | true =>
    refine ⟨[.blocked], Unheard.blocked, ?_⟩
    simp only [Kx.isRekeying] at hb ⊢
    simp only [h2] at hb
    simp only [hb, cond_true, Kx.emit, List.append_assoc, h2]
  | false =>
    refine ⟨[], Unheard.nil, ?_⟩
    simp only [Kx.isRekeying] at hb ⊢
    simp only [h2] at hb
    simp only [hb, cond_false, Kx.emit, List.nil_append, h2]

/-- Sending a KEXINIT in an idle state. -/
theorem PairSide.initiate {e pv hk alg role s} (hf : PairFits e role) (h : PairSide e pv hk alg role s)
    (hv : s.versionExchanged = true)
    (h1 : s.flags.kexinitSent = false) (h2 : s.flags.newkeysSent = false) :
    ∃ s', s.sendKexInit e = (s', none) ∧ PairSide e pv hk alg role s' ∧
      s'.flags = { s.flags with kexinitSent := true } ∧ s'.versionExchanged = s.versionExchanged ∧
      s'.inputEncrypted = s.inputEncrypted ∧ s'.peerKexinit = s.peerKexinit ∧ s'.kex = s.kex ∧
      sentPackets s'.log = sentPackets s.log ++ [20 :: s'.myKexinit] ∧
      received s'.log = received s.log ∧ agreements s'.log = agreements s.log := by
  obtain ⟨x, hx, he⟩ := sendKexInit_exact h.roleEq hf h1 h2 h.nkr
  have hrecv : s.flags.kexinitReceived = false := by
    cases hh : s.flags.kexinitReceived
    · rfl
    · rw [h.recvSent hh] at h1; exact absurd h1 (by decide)
  have ha : agreements (s.log ++ (x ++ [.sent (20 :: kexBody e role s.cookies)])) = agreements s.log := by
    rw [agreements_append, agreements_append, hx.agreed]; simp [agreements]
  have hs : sentPackets (s.log ++ (x ++ [.sent (20 :: kexBody e role s.cookies)])) =
      sentPackets s.log ++ [20 :: kexBody e role s.cookies] := by
    rw [sentPackets_app, sentPackets_app, hx.sent]; simp [sentPackets]
  have hrc : received (s.log ++ (x ++ [.sent (20 :: kexBody e role s.cookies)])) = received s.log := by
    rw [received_app, received_app, hx.recv]; simp [received]
  have ho : outCiphers (s.log ++ (x ++ [.sent (20 :: kexBody e role s.cookies)])) = outCiphers s.log := by
    rw [outCiphers_append, outCiphers_append, hx.outs]; simp [outCiphers]
  have hi : inCiphers (s.log ++ (x ++ [.sent (20 :: kexBody e role s.cookies)])) = inCiphers s.log := by
    rw [inCiphers_append, inCiphers_append, hx.ins]; simp [inCiphers]
  refine ⟨_, he, ?_, rfl, rfl, rfl, rfl, rfl, hs, hrc, ha⟩
  constructor
  all_goals simp only [ha, hs, ho, hi]
  · exact h.roleEq
  · exact h.nkr
  · intro hh; rw [h2] at hh; exact absurd hh (by decide)
  · intro _; trivial
  · intro hh; rw [hv] at hh; exact absurd hh (by decide)
  · intro _ _; exact .inl trivial
  · exact h.peer
  · exact h.first
  · exact h.ign
  · intro _; exact ⟨_, rfl⟩
  · exact h.algs
  · exact h.ext
  · exact h.kex
  · exact h.host
  · exact h.outEnc
  · exact h.inEnc
  · exact h.some_
  · exact h.auth
  · exact h.sid
  · exact h.keys
  · exact h.outs
  · exact h.ins
  · have := h.count
    rw [h1] at this
    simp only [kexInits, List.countP_append, h2] at this ⊢
    simp [this, isMsg]
  · exact h.paired.append (hx.paired.append (.quiet (by simp [quietEntry, isMsg])))

/-- The checks of `HandlePacket` pass. -/
theorem handleRaw_dispatch {e : KexEnv} {s : Kx} {msg : UInt8} {body : Bytes} (hf : s.firstPacketWasKexinit = true)
    (hi : s.ignoreNextKexPacket = false) (h : s.inputEncrypted = true ∨ (s.flags.kexinitReceived = false ∧ msg = 20) ∨
      (s.flags.kexinitReceived = true ∧ isAllowedKexMessage msg s.role = true)) :
    s.handleRawPacket e (msg :: body) .unclaimed = (s.emit (.recv (msg :: body))).dispatch e msg body := by
  have hself : { s.emit (.recv (msg :: body)) with firstPacketWasKexinit := true } = s.emit (.recv (msg :: body)) := by
    cases s; simp only at hf; subst hf; rfl
  unfold Kx.handleRawPacket
  simp only
  unfold Kx.handlePacket Kx.handlePacket₂
  cases hie : s.inputEncrypted with
  | true => simp only [Kx.emit, hie, cond_true]
  | false =>
    rcases h with h | ⟨h, rfl⟩ | ⟨h, h'⟩
    · rw [hie] at h; exact absurd h (by decide)
    · have : (s.emit (.recv (20 :: body))).firstPacketWasKexinit = true := hf
      simp only [this]
      have hm : ((20 : UInt8) == MSG_KEXINIT) = true := by decide
      simp only [hm, Bool.and_true, hself]
      simp only [Kx.emit, hie, h, cond_false, Bool.not_false, cond_true]
    · simp only [Kx.emit, hie, h, h', hi, cond_false, Bool.not_true, Bool.and_false]

/-- Negotiation between the two. -/
theorem pair_negotiation {ep : KexEnv} (role : Role) :
    makeKex (if role = .server then findCommonAlgorithm (ep.proposal (otherRole role)).kex allServerKexAlgorithms
      else findCommonAlgorithm allClientKexAlgorithms (ep.proposal (otherRole role)).kex) = some .curve25519 := by
  cases role
  · show makeKex (findCommonAlgorithm allClientKexAlgorithms allServerKexAlgorithms) = _
    rw [pair_negotiated_server, pair_makeKex]
  · show makeKex (findCommonAlgorithm allClientKexAlgorithms allServerKexAlgorithms) = _
    rw [pair_negotiated_server, pair_makeKex]

theorem pair_noExt {ep : KexEnv} (role : Role) : stringListContains (ep.proposal (otherRole role)).kex
    (if role = Role.server then ascii "ext-info-c" else ascii "ext-info-s") = false := by
  cases role
  · exact pair_ext_c
  · exact pair_ext_s

/-- The facts about a side after it received the KEXINIT of the other. -/
structure GotKexInit (e : KexEnv) (hk : Nat) (alg : Bytes) (body : Bytes) (s s' : Kx) : Prop where
  roleEq : s'.role = s.role
  flags : s'.flags = ⟨true, true, false, false⟩
  vx : s'.versionExchanged = s.versionExchanged
  peer : s'.peerVersion = s.peerVersion
  first : s'.firstPacketWasKexinit = s.firstPacketWasKexinit
  ign : s'.ignoreNextKexPacket = false
  my : s.flags.kexinitSent = true → s'.myKexinit = s.myKexinit
  my' : s.flags.kexinitSent = false → ∃ i, s'.myKexinit = kexBody e s.role i
  peerKexinit : s'.peerKexinit = body
  algs : s'.encC2S = allEncryptionAlgorithms ∧ s'.encS2C = allEncryptionAlgorithms ∧
    s'.macC2S = allMacAlgorithms ∧ s'.macS2C = allMacAlgorithms
  ext : s'.peerWantsExtInfo = false
  kex : ∃ n, s'.kex = some (.curve25519, n)
  host : s.role = .server → s'.hostKey = some hk ∧ s'.hostKeyAlgorithm = alg
  outEnc : s'.outputEncrypted = s.outputEncrypted
  inEnc : s'.inputEncrypted = s.inputEncrypted
  auth : s'.authenticated = s.authenticated
  ks : s'.ks = s.ks
  log : ∃ x n, Unheard x ∧ s'.kex = some (.curve25519, n) ∧ s'.log = s.log ++ ([.recv (20 :: body)] ++ (x ++
    ((bif s.flags.kexinitSent then [] else [.sent (20 :: s'.myKexinit)]) ++
      (if s.role = .client then [.sent (30 :: ecdhInitBody (e.ephPub .curve25519 n))] else []))))

/-- `if (!kex_flags.kexinit_sent) SendKexInit();` -/
theorem ensureKexInit_pair {e : KexEnv} {u : Kx} {role : Role} (hr : u.role = role) (hf : PairFits e role)
    (h2 : u.flags.newkeysSent = false) (h3 : u.flags.newkeysReceived = false) :
    ∃ my k x, u.ensureKexInit e = ({ u with
        flags := { u.flags with kexinitSent := true }
        myKexinit := my
        cookies := k
        log := u.log ++ (x ++ (bif u.flags.kexinitSent then [] else [.sent (20 :: my)])) }, none) ∧ Unheard x ∧
      (u.flags.kexinitSent = true → my = u.myKexinit) ∧ (u.flags.kexinitSent = false → ∃ i, my = kexBody e role i) := by
  unfold Kx.ensureKexInit
  cases hs : u.flags.kexinitSent with
  | true =>
    refine ⟨u.myKexinit, u.cookies, [], ?_, Unheard.nil, fun _ => rfl, fun h => absurd h (by decide)⟩
    simp only [cond_true, List.append_nil]
    cases u with | mk role flags => cases flags; simp only at hs; subst hs; rfl
  | false =>
    obtain ⟨x, hx, he⟩ := sendKexInit_exact hr hf hs h2 h3
    simp only [cond_false]
    exact ⟨_, _, x, he, hx, fun h => absurd h (by decide), fun _ => ⟨_, rfl⟩⟩

/-- The end of `HandleKexInit`. -/
theorem handleKexInit₂_pair {e : KexEnv} {u : Kx} {role : Role} {p : PKexInit} {neg : Bytes} {hk : Nat} {alg : Bytes} {n : Nat}
    (hr : u.role = role) (hf : PairFits e role) (heph : role = .client → ∀ n, (e.ephPub .curve25519 n).length ≤ 10000)
    (hch : role = .server → e.chooseHostKey p.hostKey = some (hk, alg))
    (h1 : u.flags.kexinitReceived = true) (h2 : u.flags.newkeysSent = false) (h3 : u.flags.newkeysReceived = false)
    (hfirst : u.firstPacketWasKexinit = true) (hign : u.ignoreNextKexPacket = false)
    (hk' : u.kex = some (.curve25519, n)) (hfol : p.firstKexPacketFollows = false) :
    ∃ my k hkk a x, u.handleKexInit₂ e p neg = ({ u with
        flags := { u.flags with kexinitSent := true }
        hostKey := hkk
        hostKeyAlgorithm := a
        myKexinit := my
        cookies := k
        log := u.log ++ (x ++ ((bif u.flags.kexinitSent then [] else [.sent (20 :: my)]) ++
          (if role = .client then [.sent (30 :: ecdhInitBody (e.ephPub .curve25519 n))] else []))) }, none) ∧ Unheard x ∧
      (u.flags.kexinitSent = true → my = u.myKexinit) ∧ (u.flags.kexinitSent = false → ∃ i, my = kexBody e role i) ∧
      (role = .server → hkk = some hk ∧ a = alg) := by
  unfold Kx.handleKexInit₂
  rw [show (u.peerWantsStrict && !u.firstPacketWasKexinit) = false by simp [hfirst]]
  simp only [cond_false]
  split
  · rename_i hrole
    obtain rfl : role = .server := by rw [← hr, hrole]
    rw [hch rfl]
    simp only
    obtain ⟨my, k, x, he, hx, hm1, hm2⟩ := ensureKexInit_pair (e := e) (role := .server)
      (u := { u with hostKey := some hk, hostKeyAlgorithm := alg }) hr hf h2 h3
    rw [he]
    simp only [KRes.andThen, hfol, Bool.false_and]
    refine ⟨my, k, some hk, alg, x, ?_, hx, hm1, hm2, fun _ => ⟨rfl, rfl⟩⟩
    rw [if_neg (by decide), List.append_nil, ← hign]
  · rename_i hrole
    obtain rfl : role = .client := by rw [← hr, hrole]
    obtain ⟨my, k, x, he, hx, hm1, hm2⟩ := ensureKexInit_pair (e := e) (role := .client) (u := u) hr hf h2 h3
    rw [he]
    simp only [KRes.andThen]
    unfold Kx.sendECDHKexInit
    have hb := (C05_ecdh_init (e.ephPub .curve25519 n) (by have := heph rfl n; omega)).1
    unfold Builds at hb
    rw [if_pos] at hb
    · refine ⟨my, k, u.hostKey, u.hostKeyAlgorithm, x, ?_, hx, hm1, hm2, fun h => absurd h (by decide)⟩
      split
      · rename_i hh; rw [hk'] at hh; exact absurd hh (by simp)
      · rename_i m n' hh
        rw [hk'] at hh
        simp only [Option.some.injEq, Prod.mk.injEq] at hh
        obtain ⟨rfl, rfl⟩ := hh
        rw [show (u.role != .client || !true || !u.flags.kexinitReceived || u.flags.newkeysSent ||
          u.flags.newkeysReceived) = false by simp [hr, h1, h2, h3]]
        rw [hb]
        simp [Kx.sendSer, Kx.emit, Ser.since]
    · have := heph rfl n
      simp only [ecdhInitBody, Spec.str, Spec.u32, List.length_append, List.length_cons, List.length_nil, BUFFER_SIZE]
      omega

theorem finishKexInit {e : KexEnv} {s u : Kx} {p : PKexInit} {neg body : Bytes} {hk : Nat} {alg : Bytes} {n : Nat}
    (hf : PairFits e s.role) (heph : s.role = .client → ∀ n, (e.ephPub .curve25519 n).length ≤ 10000)
    (hch : s.role = .server → e.chooseHostKey p.hostKey = some (hk, alg)) (hfol : p.firstKexPacketFollows = false)
    (hfirst : s.firstPacketWasKexinit = true) (hign : s.ignoreNextKexPacket = false)
    (h0 : u.role = s.role) (h1 : u.flags = { s.flags with kexinitReceived := true }) (h1' : s.flags.newkeysSent = false)
    (h1'' : s.flags.newkeysReceived = false)
    (h2 : u.versionExchanged = s.versionExchanged) (h3 : u.peerVersion = s.peerVersion)
    (h4 : u.firstPacketWasKexinit = s.firstPacketWasKexinit) (h5 : u.ignoreNextKexPacket = s.ignoreNextKexPacket)
    (h6 : u.myKexinit = s.myKexinit) (h7 : u.peerKexinit = body)
    (h8 : u.encC2S = allEncryptionAlgorithms ∧ u.encS2C = allEncryptionAlgorithms ∧
      u.macC2S = allMacAlgorithms ∧ u.macS2C = allMacAlgorithms)
    (h9 : u.peerWantsExtInfo = false) (h10 : u.kex = some (.curve25519, n))
    (h11 : u.outputEncrypted = s.outputEncrypted) (h12 : u.inputEncrypted = s.inputEncrypted)
    (h13 : u.authenticated = s.authenticated) (h14 : u.ks = s.ks) (h15 : u.log = s.log ++ [.recv (20 :: body)]) :
    ∃ s', u.handleKexInit₂ e p neg = (s', none) ∧ GotKexInit e hk alg body s s' := by
  obtain ⟨my, k, hkk, a, x, he, hx, hm1, hm2, hh⟩ := handleKexInit₂_pair (e := e) (u := u) (role := s.role) (p := p) (neg := neg)
    (hk := hk) (alg := alg) (n := n) h0 hf heph hch (by rw [h1]) (by rw [h1]; exact h1') (by rw [h1]; exact h1'')
    (by rw [h4]; exact hfirst) (by rw [h5]; exact hign) h10 hfol
  refine ⟨_, he, ?_⟩
  constructor
  case roleEq => exact h0
  case flags => simp only [h1, h1', h1'']
  case vx => exact h2
  case peer => exact h3
  case first => exact h4
  case ign => simp only [h5, hign]
  case my => intro h; simp only [hm1 (by rw [h1]; exact h), h6]
  case my' => intro h; exact hm2 (by rw [h1]; exact h)
  case peerKexinit => exact h7
  case algs => exact h8
  case ext => exact h9
  case kex => exact ⟨n, h10⟩
  case host => exact hh
  case outEnc => exact h11
  case inEnc => exact h12
  case auth => exact h13
  case ks => exact h14
  case log =>
    refine ⟨x, n, hx, h10, ?_⟩
    simp only [h15, h1, List.append_assoc]

theorem handleKexInit_pair {e ep pv hk alg role s} (hf : PairFits e role) (hp : PairFits ep (otherRole role))
    (heph : role = .client → ∀ n, (e.ephPub .curve25519 n).length ≤ 10000)
    (hch : role = .server → e.chooseHostKey allPublicKeyAlgorithms = some (hk, alg))
    (h : PairSide e pv hk alg role s) (hr : s.flags.kexinitReceived = false)
    (hn : s.flags.newkeysSent = false) (i : Nat) :
    ∃ s', s.handleRawPacket e (20 :: kexBody ep (otherRole role) i) .unclaimed = (s', none) ∧
      GotKexInit e hk alg (kexBody ep (otherRole role) i) s s' := by
  rw [handleRaw_dispatch h.first h.ign (.inr (.inl ⟨hr, rfl⟩))]
  obtain ⟨_, hparse⟩ := kexBody_fits hp i
  generalize hbody : kexBody ep (otherRole role) i = body at hparse ⊢
  obtain rfl : s.role = role := h.roleEq
  have hch' : s.role = .server → e.chooseHostKey (ep.proposal (otherRole s.role)).hostKey = some (hk, alg) := by
    intro hh; rw [hh]; exact hch hh
  have hneg := pair_negotiation (ep := ep) s.role
  have hext := pair_noExt (ep := ep) s.role
  have hnkr := h.nkr
  unfold Kx.dispatch
  rw [if_neg (by decide), if_neg (by decide), if_neg (by decide), if_pos (by rfl)]
  unfold Kx.handleKexInit
  rw [show ((s.emit (.recv (20 :: body))).flags.kexinitReceived || (s.emit (.recv (20 :: body))).flags.newkeysSent ||
    (s.emit (.recv (20 :: body))).flags.newkeysReceived) = false by simp only [Kx.emit, hr, hn, hnkr]; rfl]
  simp only [cond_false]
  rw [hparse]
  simp only [Kx.emit]
  split
  · rename_i hh
    exact absurd (hneg.symm.trans hh) (by simp)
  rename_i m hm
  obtain rfl : KexMethod.curve25519 = m := Option.some.inj (hneg.symm.trans hm)
  exact finishKexInit hf heph hch' rfl h.first h.ign rfl rfl hn hnkr rfl rfl rfl rfl rfl rfl ⟨rfl, rfl, rfl, rfl⟩ hext rfl
    rfl rfl rfl rfl rfl

/-- The projections of the log after a KEXINIT was received. -/
theorem GotKexInit.proj {e hk alg body s s'} (h : GotKexInit e hk alg body s s') :
    received s'.log = received s.log ++ [20 :: body] ∧ agreements s'.log = agreements s.log ∧
    outCiphers s'.log = outCiphers s.log ∧ inCiphers s'.log = inCiphers s.log ∧
    ∃ n, s'.kex = some (.curve25519, n) ∧ sentPackets s'.log = sentPackets s.log ++
      ((bif s.flags.kexinitSent then [] else [20 :: s'.myKexinit]) ++
        (if s.role = .client then [30 :: ecdhInitBody (e.ephPub .curve25519 n)] else [])) := by
  obtain ⟨x, n, hx, hn, hl⟩ := h.log
  rw [hl]
  refine ⟨?_, ?_, ?_, ?_, n, hn, ?_⟩
  · simp only [received_app, hx.recv]
    cases s.flags.kexinitSent <;> split <;> simp [received]
  · simp only [agreements_append, hx.agreed]
    cases s.flags.kexinitSent <;> split <;> simp [agreements]
  · simp only [outCiphers_append, hx.outs]
    cases s.flags.kexinitSent <;> split <;> simp [outCiphers]
  · simp only [inCiphers_append, hx.ins]
    cases s.flags.kexinitSent <;> split <;> simp [inCiphers]
  · simp only [sentPackets_app, hx.sent]
    cases s.flags.kexinitSent <;> split <;> simp [sentPackets]

theorem GotKexInit.side {e pv hk alg role body s s'} (g : GotKexInit e hk alg body s s') (h : PairSide e pv hk alg role s)
    (hr : s.flags.kexinitReceived = false) (hn : s.flags.newkeysSent = false) (hv : s.versionExchanged = true) :
    PairSide e pv hk alg role s' := by
  obtain ⟨hrc, ha, ho, hi, n, hk', hs⟩ := g.proj
  have hrole := h.roleEq
  constructor
  all_goals try simp only [ha, ho, hi, g.flags, g.vx, g.outEnc, g.inEnc, g.auth, g.ks, g.roleEq, g.first, g.ign]
  · exact h.roleEq
  · exact fun h => ⟨trivial, trivial⟩
  · exact fun _ => trivial
  · intro hh; rw [hv] at hh; exact absurd hh (by decide)
  · intro _ _; exact .inl trivial
  · intro hh; rw [g.peer]; exact h.peer hh
  · exact h.first
  · intro _
    cases hh : s.flags.kexinitSent with
    | true => rw [g.my hh]; exact h.my hh
    | false => rw [← hrole]; exact g.my' hh
  · exact fun _ => g.algs
  · exact fun _ => g.ext
  · exact fun _ _ => g.kex
  · exact fun hh _ _ => g.host (by rw [hrole]; exact hh)
  · exact h.outEnc
  · have := h.inEnc; rw [hn] at this; exact this
  · intro hh; exact absurd hh (by decide)
  · have := h.auth; simp only [Kx.isEncrypted, g.outEnc, g.inEnc] at this ⊢; exact this
  · exact h.sid
  · intro _ _ hh; exact absurd hh (by decide)
  · exact h.outs
  · have := h.ins; rw [hn] at this; exact this
  · have hc := h.count
    rw [hs]
    simp only [kexInits, List.countP_append, hn, Bool.not_false, Bool.and_true, cond_true] at hc ⊢
    rw [hc]
    cases s.flags.kexinitSent <;> split <;> simp [isMsg]
  · obtain ⟨x, n, hx, _, hl⟩ := g.log
    rw [hl]
    refine h.paired.append (.append (.quiet (by simp [quietEntry, isMsg])) (hx.paired.append (.quiet ?_)))
    cases s.flags.kexinitSent <;> split <;> simp [quietEntry, isMsg]

end Lukko
