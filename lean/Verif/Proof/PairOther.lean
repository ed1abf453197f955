import Verif.Proof.PairKeys
/-
  The other events on one side of a pair.
-/
namespace Lukko
open Spec Model

/-- NEWKEYS is received. -/
theorem handleNewKeys_pair {e pv hk alg role s} (hd : ∀ x, (e.digest x).length = 32) (h : PairSide e pv hk alg role s)
    (hf : s.flags = ⟨true, true, true, false⟩) (hv : s.versionExchanged = true) :
    ∃ s', s.handleRawPacket e [21] .unclaimed = (s', none) ∧ PairSide e pv hk alg role s' ∧
      s'.flags = {} ∧ s'.versionExchanged = true ∧ s'.inputEncrypted = true ∧ s'.myKexinit = s.myKexinit ∧
      received s'.log = received s.log ++ [[21]] ∧ sentPackets s'.log = sentPackets s.log ∧
      agreements s'.log = agreements s.log := by
  obtain ⟨a1, a2, a3, a4⟩ := h.algs (by rw [hf])
  have hne := h.some_ (by rw [hf])
  obtain ⟨ts, t, hts⟩ : ∃ ts t, agreements s.log = ts ++ [t] :=
    ⟨_, _, (List.dropLast_concat_getLast hne).symm⟩
  have hkeys := h.keys ts t (by rw [hf]) hts
  have hsid : s.ks.sessionId ≠ [] := by
    rw [h.sid, hts]
    intro hh
    cases ts with
    | nil => have := hd (hashInput t); rw [show e.digest (hashInput t) = [] from hh] at this; simp at this
    | cons a l => have := hd (hashInput a); rw [show e.digest (hashInput a) = [] from hh] at this; simp at this
  rw [handleRaw_dispatch h.first h.ign (.inr (.inr ⟨by rw [hf], by simp [isAllowedKexMessage]⟩))]
  unfold Kx.dispatch
  rw [if_neg (by decide), if_neg (by decide), if_neg (by decide), if_neg (by decide), if_pos (by rfl)]
  obtain ⟨x, hx, he⟩ : ∃ x, Unheard x ∧ (s.emit (.recv [21])).handleNewKeys = ({ s with
      flags := {}
      inputEncrypted := true
      log := s.log ++ ([.recv [21], .installIn pairEnc pairMac s.ks.newKeysIn] ++ x) }, none) := by
    unfold Kx.handleNewKeys
    rw [show (!(s.emit (.recv [21])).flags.kexinitSent || !(s.emit (.recv [21])).flags.kexinitReceived ||
      !(s.emit (.recv [21])).flags.newkeysSent || (s.emit (.recv [21])).flags.newkeysReceived) = false by
      simp [Kx.emit, hf]]
    simp only [cond_false, Kx.emit, a1, a2, a3, a4, pair_enc, pair_mac, pair_cipher, hf, KexFlags.resetIfComplete,
      Bool.and_true, cond_true]
    rw [show (s.ks.sessionId == []) = false by simpa using hsid]
    simp only [cond_false, Kx.isEncrypted, Bool.true_and]
    cases h1 : s.inputEncrypted <;> cases h2 : s.outputEncrypted
    case false.true => exact ⟨[.encrypted], Unheard.encrypted, by simp [h2]⟩
    all_goals exact ⟨[], Unheard.nil, by simp [h2]⟩
  rw [he]
  generalize hl : s.log ++ ([.recv [21], .installIn pairEnc pairMac s.ks.newKeysIn] ++ x) = l
  have p1 : received l = received s.log ++ [[21]] := by
    rw [← hl]; simp only [received_app, hx.recv]; simp [received]
  have p2 : sentPackets l = sentPackets s.log := by
    rw [← hl]; simp only [sentPackets_app, hx.sent]; simp [sentPackets]
  have p3 : agreements l = agreements s.log := by
    rw [← hl]; simp only [agreements_append, hx.agreed]; simp [agreements]
  have p4 : outCiphers l = outCiphers s.log := by
    rw [← hl]; simp only [outCiphers_append, hx.outs]; simp [outCiphers]
  have p5 : inCiphers l = inCiphers s.log ++ [(pairEnc, pairMac, s.ks.newKeysIn)] := by
    rw [← hl]; simp only [inCiphers_append, hx.ins]; simp [inCiphers]
  refine ⟨_, rfl, ?_, rfl, hv, rfl, rfl, p1, p2, p3⟩
  constructor
  all_goals try simp only [p2, p3, p4, p5]
  · exact h.roleEq
  · intro hh; exact absurd hh (by decide)
  · intro hh; exact absurd hh (by decide)
  · intro hh; rw [hv] at hh; exact absurd hh (by decide)
  · exact fun _ _ => .inr hne
  · exact h.peer
  · exact h.first
  · exact h.ign
  · intro hh; exact absurd hh (by decide)
  · intro hh; exact absurd hh (by decide)
  · intro hh; exact absurd hh (by decide)
  · intro hh; exact absurd hh (by decide)
  · intro _ hh; exact absurd hh (by decide)
  · exact h.outEnc
  · simp [doneOf, hts]
  · intro hh; exact absurd hh (by decide)
  · intro hh
    have := h.outEnc
    simp [hts] at this
    simp [Kx.isEncrypted, this]
  · exact h.sid
  · intro _ _ hh; exact absurd hh (by decide)
  · exact h.outs
  · have := h.ins
    rw [hf, hts] at this
    rw [this, hts]
    simp only [doneOf, cond_true, cond_false, List.dropLast_concat]
    rw [ciphersOf_snoc, hkeys]
    rfl
  · have := h.count
    rw [hf] at this
    exact this
  · rw [← hl]; exact h.paired.append (.append (.in_ rfl .nil) hx.paired)

/-- Changes which do not concern the key exchange. -/
theorem PairSide.other {e pv hk alg role s} (h : PairSide e pv hk alg role s) {a b : Bool} {ext : List Entry}
    (hext : agreements ext = [] ∧ outCiphers ext = [] ∧ inCiphers ext = [] ∧ kexInits (sentPackets ext) = 0)
    (hp : Paired ext) (ha : a = true → s.isEncrypted = true) :
    PairSide e pv hk alg role { s with authenticated := a, writeBlocked := b, log := s.log ++ ext } := by
  obtain ⟨e1, e2, e3, e4⟩ := hext
  constructor
  all_goals try simp only [agreements_append, outCiphers_append, inCiphers_append, sentPackets_app, e1, e2, e3, List.append_nil]
  · exact h.roleEq
  · exact h.nkr
  · exact h.nk
  · exact h.recvSent
  · exact h.quiet
  · exact h.started
  · exact h.peer
  · exact h.first
  · exact h.ign
  · exact h.my
  · exact h.algs
  · exact h.ext
  · exact h.kex
  · exact h.host
  · exact h.outEnc
  · exact h.inEnc
  · exact h.some_
  · exact ha
  · exact h.sid
  · exact h.keys
  · exact h.outs
  · exact h.ins
  · have := h.count
    simp only [kexInits, List.countP_append] at this e4 ⊢
    rw [e4]; exact this
  · exact h.paired.append hp

/-- Two states which differ only in what the other side does not see. -/
structure SameSide (s s' : Kx) : Prop where
  flags : s'.flags = s.flags
  vx : s'.versionExchanged = s.versionExchanged
  inEnc : s'.inputEncrypted = s.inputEncrypted
  my : s'.myKexinit = s.myKexinit
  peerKexinit : s'.peerKexinit = s.peerKexinit
  kex : s'.kex = s.kex
  agreed : agreements s'.log = agreements s.log

/-- A packet of the application is received. -/
theorem handlePlain_pair {e pv hk alg role s} (h : PairSide e pv hk alg role s) (hi : s.inputEncrypted = true) {p : Bytes}
    (hp : isPlain p = true) (handled : Bool) :
    ∃ s' more, s.handleRawPacket e p (pairClaim p handled) = (s', none) ∧ PairSide e pv hk alg role s' ∧ SameSide s s' ∧
      received s'.log = received s.log ++ [p] ∧ sentPackets s'.log = sentPackets s.log ++ more ∧
      (more = [] ∨ (∃ t, more = [3 :: t]) ∧ isMsg 2 p = false ∧ isMsg 3 p = false) := by
  unfold pairClaim
  rw [hp, Bool.and_true]
  cases p with
  | nil => simp [isPlain] at hp
  | cons m body =>
    simp only [isPlain, isMsg, List.isEmpty_cons, Bool.not_false, Bool.true_and, List.head?_cons, Bool.and_eq_true,
      Bool.not_eq_true', beq_eq_false_iff_ne, ne_eq, Option.some.injEq] at hp
    obtain ⟨⟨⟨⟨m1, m2⟩, m3⟩, m4⟩, m5⟩ := hp
    have hraw : ∀ claim, s.handleRawPacket e (m :: body) claim = (s.emit (.recv (m :: body))).handlePacket₂ e m body claim := by
      intro claim
      unfold Kx.handleRawPacket Kx.handlePacket
      simp only [Kx.emit, hi, cond_true]
    have hquiet : ∃ s', (s.emit (.recv (m :: body)), (none : Option Stop)) = (s', none) ∧ PairSide e pv hk alg role s' ∧
        SameSide s s' ∧ received s'.log = received s.log ++ [m :: body] ∧ sentPackets s'.log = sentPackets s.log ++ [] := by
      refine ⟨_, rfl, h.other (a := s.authenticated) (b := s.writeBlocked) (ext := [.recv (m :: body)]) ⟨rfl, rfl, rfl, rfl⟩
        (.quiet (by simpa [quietEntry, isMsg] using m3)) h.auth,
        ⟨rfl, rfl, rfl, rfl, rfl, rfl, ?_⟩, ?_, ?_⟩
      · simp [Kx.emit, agreements]
      · simp [Kx.emit, received]
      · simp [Kx.emit, sentPackets]
    rw [hraw]
    unfold Kx.handlePacket₂
    cases handled with
    | true =>
      obtain ⟨s', q1, q2, q3, q4, q5⟩ := hquiet
      exact ⟨s', [], q1, q2, q3, q4, q5, .inl rfl⟩
    | false =>
      simp only [cond_false]
      unfold Kx.dispatch
      rw [if_neg m1]
      split
      · obtain ⟨s', q1, q2, q3, q4, q5⟩ := hquiet
        exact ⟨s', [], q1, q2, q3, q4, q5, .inl rfl⟩
      split
      · obtain ⟨s', q1, q2, q3, q4, q5⟩ := hquiet
        exact ⟨s', [], q1, q2, q3, q4, q5, .inl rfl⟩
      rename_i n2 n3
      generalize (s.emit (.recv (m :: body))).seqNo = k
      have hb : makeUnimplemented k = .ok ⟨[0, 0, 0, 0, 0, 3] ++ Spec.u32 k⟩ := by
        have := Writes.noexcept_begin (Writes.u32 k) MSG_UNIMPLEMENTED
        rw [if_pos (by simp [Spec.u32, BUFFER_SIZE])] at this
        exact this
      rw [hb]
      refine ⟨_, [3 :: Spec.u32 k], rfl, ?_, ⟨rfl, rfl, rfl, rfl, rfl, rfl, ?_⟩, ?_, ?_, .inr ⟨⟨_, rfl⟩, ?_, ?_⟩⟩
      · have := h.other (a := s.authenticated) (b := s.writeBlocked) (ext := [.recv (m :: body), .sent (3 :: Spec.u32 k)])
          ⟨rfl, rfl, rfl, rfl⟩ (.quiet (by simpa [quietEntry, isMsg] using m3)) h.auth
        simpa [Kx.emit, Ser.since] using this
      · simp [Kx.emit, agreements]
      · simp [Kx.emit, received]
      · simp [Kx.emit, sentPackets, Ser.since]
      · simpa [isMsg] using n2
      · simpa [isMsg] using n3

/-- The socket is writable. -/
theorem onBufferedWrite_pair {e pv hk alg role s} (h : PairSide e pv hk alg role s) (more : Bool) :
    PairSide e pv hk alg role (s.onBufferedWrite more) ∧ SameSide s (s.onBufferedWrite more) ∧
      received (s.onBufferedWrite more).log = received s.log ∧
      sentPackets (s.onBufferedWrite more).log = sentPackets s.log := by
  obtain ⟨b, x, hx, he⟩ : ∃ b x, Unheard x ∧ s.onBufferedWrite more =
      { s with authenticated := s.authenticated, writeBlocked := b, log := s.log ++ x } := by
    unfold Kx.onBufferedWrite
    simp only [Kx.isRekeying, Kx.emit]
    cases h0 : s.writeBlocked <;> cases more <;> cases h1 : (s.outputEncrypted && s.flags.kexinitSent && !s.flags.newkeysSent)
    all_goals simp only [cond_true, cond_false, Bool.not_true, Bool.not_false, Bool.and_false, Bool.and_true, h1]
    · exact ⟨false, [], Unheard.nil, by simp⟩
    · exact ⟨false, [], Unheard.nil, by simp⟩
    · exact ⟨true, [.blocked], Unheard.blocked, by simp⟩
    · exact ⟨true, [], Unheard.nil, by simp⟩
    · exact ⟨false, [.unblocked], Unheard.unblocked, by simp⟩
    · exact ⟨false, [], Unheard.nil, by simp⟩
    · exact ⟨true, [.unblocked, .blocked], ⟨rfl, rfl, rfl, rfl, rfl⟩, by simp⟩
    · exact ⟨true, [], Unheard.nil, by simp⟩
  rw [he]
  refine ⟨h.other ⟨hx.agreed, hx.outs, hx.ins, by rw [hx.sent]; rfl⟩ hx.paired h.auth, ⟨rfl, rfl, rfl, rfl, rfl, rfl, ?_⟩, ?_, ?_⟩
  · simp only [agreements_append, hx.agreed, List.append_nil]
  · simp only [received_app, hx.recv, List.append_nil]
  · simp only [sentPackets_app, hx.sent, List.append_nil]

/-- The identification string arrives. -/
theorem onVersion_pair {e pv hk alg role s} (hf : PairFits e role) (h : PairSide e pv hk alg role s) (hv : s.versionExchanged = false) :
    ∃ s' more, s.onVersion e pv = (s', none) ∧ PairSide e pv hk alg role s' ∧ s'.versionExchanged = true ∧
      s'.flags = { s.flags with kexinitSent := role == .client } ∧ s'.inputEncrypted = s.inputEncrypted ∧
      received s'.log = received s.log ∧ sentPackets s'.log = sentPackets s.log ++ more ∧ agreements s'.log = agreements s.log ∧
      more = (if role = .client then [20 :: s'.myKexinit] else []) := by
  obtain ⟨hfl, hag⟩ := h.quiet hv
  have hcount := h.count
  simp only [hfl, hag] at hcount
  -- the state after the identification string, before anything is sent; `b`: a KEXINIT follows
  have base : ∀ (my : Bytes) (k : Nat) (sent : Bool) (ext : List Entry), received ext = [] → agreements ext = [] → outCiphers ext = [] →
      inCiphers ext = [] → kexInits (sentPackets ext) = (bif sent then 1 else 0) → (sent = true → ∃ i, my = kexBody e role i) →
      (role = .client → sent = true) → Paired ext →
      PairSide e pv hk alg role { s with peerVersion := pv, versionExchanged := true, myKexinit := my, cookies := k,
                                         flags := { s.flags with kexinitSent := sent }, log := s.log ++ ext } := by
    intro my k sent ext x1 x2 x3 x4 x5 x6 x7 x8
    constructor
    all_goals try simp only [agreements_append, outCiphers_append, inCiphers_append, sentPackets_app, x2, x3, x4, List.append_nil, hfl]
    · exact h.roleEq
    · intro hh; exact absurd hh (by decide)
    · intro hh; exact absurd hh (by decide)
    · intro hh; exact absurd hh (by decide)
    · intro hh _; exact .inl (x7 hh)
    · intro _; trivial
    · exact h.first
    · exact h.ign
    · exact x6
    · intro hh; exact absurd hh (by decide)
    · intro hh; exact absurd hh (by decide)
    · intro hh; exact absurd hh (by decide)
    · intro _ hh; exact absurd hh (by decide)
    · exact h.outEnc
    · have := h.inEnc; rw [hfl] at this; exact this
    · intro hh; exact absurd hh (by decide)
    · exact h.auth
    · exact h.sid
    · intro _ _ hh; exact absurd hh (by decide)
    · exact h.outs
    · have := h.ins; rw [hfl] at this; exact this
    · simp only [kexInits, List.countP_append, hag] at hcount x5 ⊢
      rw [x5, hcount]; cases sent <;> rfl
    · exact h.paired.append x8
  unfold Kx.onVersion
  have hr : (s.emit (.version pv)).role = role := h.roleEq
  cases role with
  | server =>
    simp only [Kx.emit]
    rw [show (s.role == .client) = false by rw [h.roleEq]; rfl]
    simp only [cond_false]
    refine ⟨_, [], rfl, ?_, rfl, ?_, rfl, ?_, ?_, ?_, rfl⟩
    · have := base s.myKexinit s.cookies false [.version pv] rfl rfl rfl rfl rfl (by simp) (by simp) (.quiet rfl)
      rw [hfl] at this
      simpa [hfl] using this
    · rw [hfl]; rfl
    · simp [received]
    · simp [sentPackets]
    · simp [agreements]
  | client =>
    simp only [Kx.emit]
    rw [show (s.role == .client) = true by rw [h.roleEq]; rfl]
    simp only [cond_true]
    obtain ⟨x, hx, he⟩ := sendKexInit_exact (e := e) (role := .client) (s := { s with
      peerVersion := pv, versionExchanged := true, log := s.log ++ [.version pv] }) h.roleEq hf (by simp only [hfl])
      (by simp only [hfl]) (by simp only [hfl])
    rw [he]
    refine ⟨_, _, rfl, ?_, rfl, rfl, rfl, ?_, ?_, ?_, rfl⟩
    · have := base (kexBody e .client s.cookies) (s.cookies + 1) true ([.version pv] ++ (x ++ [.sent (20 :: kexBody e .client s.cookies)]))
        (by simp only [received_app, hx.recv]; rfl) (by simp only [agreements_append, hx.agreed]; rfl)
        (by simp only [outCiphers_append, hx.outs]; rfl) (by simp only [inCiphers_append, hx.ins]; rfl)
        (by simp only [sentPackets_app, hx.sent]; simp [sentPackets, kexInits, isMsg]) (fun _ => ⟨_, rfl⟩) (fun _ => rfl)
        (.append (.quiet rfl) (hx.paired.append (.quiet rfl)))
      simpa using this
    · simp only [received_app, hx.recv]; simp [received]
    · simp only [sentPackets_app, hx.sent]; simp [sentPackets]
    · simp only [agreements_append, hx.agreed]; simp [agreements]

end Lukko
