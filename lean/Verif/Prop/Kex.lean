import Verif.Proof.KexStrict
import Verif.Proof.KexPhase
/-
  C12–C18, C50, C61: key exchange.

  All theorems are about `(KxSys.init role).run e evs`: a new connection in
  either role, after any sequence of events – the peer's identification line,
  arbitrary packets, the application authenticating the peer, the rekey timer,
  the socket becoming writable – for any environment `e` (own version string,
  cookies, ephemeral keys, host keys, signatures), provided the digest has 32
  bytes (SHA-256) and the registered packet handlers leave the packets of the
  key exchange (20, 21, 30, 31) alone (`EventOk`).
-/
namespace Lukko
open Spec Model

/-! ## A concrete environment and histories -/

/-- A toy environment: a "hash" that keeps 32 bytes, signatures that are the
hash itself. -/
def demoEnv : KexEnv where
  ownVersion := ascii "SSH-2.0-CM4all_lukko"
  cookie := fun n => List.replicate 16 (UInt8.ofNat n)
  ephPub := fun _ n => List.replicate 32 (UInt8.ofNat (n + 100))
  shared := fun _ _ eph => curve25519Secret (fun k => some k) eph
  digest := fun x => (x.reverse ++ List.replicate 32 0).take 32
  hostKeyAlgorithms := ascii "ssh-ed25519"
  chooseHostKey := fun l => if stringListContains l (ascii "ssh-ed25519") then some (0, ascii "ssh-ed25519") else none
  hostKeyBlob := fun _ => ascii "host key"
  sign := fun _ h _ => some h
  verifier := some (fun blob => blob == ascii "host key")
  verify := fun _ h sig => h == sig

theorem demoEnv_digest : ∀ x, (demoEnv.digest x).length = 32 := by
  intro x; simp [demoEnv]

/-- A KEXINIT packet. -/
def demoKexInit (kex : Bytes) (follows : Bool) : Bytes :=
  20 :: (List.replicate 16 7 ++ str kex ++ str (ascii "ssh-ed25519") ++
    str (ascii "chacha20-poly1305@openssh.com") ++ str (ascii "chacha20-poly1305@openssh.com") ++
    str [] ++ str [] ++ str (ascii "none") ++ str (ascii "none") ++ str [] ++ str [] ++ bool follows ++ u32 0)

/-- A client with which our server exchanges keys. -/
def demoServerEvents : List KxEvent :=
  [.version (ascii "SSH-2.0-demo"), .packet (demoKexInit (ascii "curve25519-sha256") false) .unclaimed,
   .packet (30 :: str (List.replicate 32 9)) .unclaimed, .packet [21] .unclaimed]

/-- A second exchange, started by us, while the socket is congested for a while. -/
def demoRekeyEvents : List KxEvent :=
  demoServerEvents ++ [.authenticated, .writable true, .rekeyTimer, .writable false,
    .packet (demoKexInit (ascii "curve25519-sha256") false) .unclaimed,
    .packet (30 :: str (List.replicate 32 8)) .unclaimed, .packet [21] .unclaimed]

def demoServer (evs : List KxEvent) : KxSys := (KxSys.init .server).run demoEnv evs

theorem eventOk_of {evs : List KxEvent} (h : (evs.all fun | .packet _ c => c == .unclaimed | _ => true) = true) :
    ∀ ev ∈ evs, EventOk ev := by
  intro ev hev
  have := List.all_eq_true.1 h ev hev
  cases ev <;> simp_all [EventOk, ClaimOk]

example : (demoServer demoServerEvents).stop = none ∧ (demoServer demoServerEvents).kx.isEncrypted = true := by
  decide +kernel

example : (demoServer demoRekeyEvents).stop = none ∧
    (demoServer demoRekeyEvents).kx.log.countP (fun | .agreed _ => true | _ => false) = 2 := by
  decide +kernel

/-- A server with which our client exchanges keys. -/
def demoClient₁ : List KxEvent :=
  [.version (ascii "SSH-2.0-demo"), .packet (demoKexInit (ascii "curve25519-sha256") false) .unclaimed]

def demoClient (evs : List KxEvent) : KxSys := (KxSys.init .client).run demoEnv evs

def demoTranscript : Transcript where
  clientVersion := demoEnv.ownVersion
  serverVersion := ascii "SSH-2.0-demo"
  clientKexinit := (lastSent 20 (demoClient demoClient₁).kx.log).getD []
  serverKexinit := (demoKexInit (ascii "curve25519-sha256") false).tail
  hostKey := ascii "host key"
  clientEph := List.replicate 32 100
  serverEph := List.replicate 32 9
  secret := str (List.replicate 32 9)

def demoClientEvents : List KxEvent :=
  demoClient₁ ++ [.packet (31 :: ecdhReplyBody demoTranscript.hostKey demoTranscript.serverEph
    (demoEnv.digest (hashInput demoTranscript))) .unclaimed, .packet [21] .unclaimed]

example : (demoClient demoClientEvents).stop = none ∧ (demoClient demoClientEvents).kx.isEncrypted = true ∧
    .agreed demoTranscript ∈ (demoClient demoClientEvents).kx.log := by
  decide +kernel

variable {e : KexEnv} {role : Role} {evs : List KxEvent}

theorem run_inv (hd : ∀ x, (e.digest x).length = 32) (hev : ∀ ev ∈ evs, EventOk ev) :
    SysInv e role ((KxSys.init role).run e evs) := (SysInv.init e role).run hd hev

theorem run_safe (hd : ∀ x, (e.digest x).length = 32) (hev : ∀ ev ∈ evs, EventOk ev) :
    Safe e role ((KxSys.init role).run e evs).kx := by
  have h := run_inv (role := role) hd hev
  unfold SysInv at h
  split at h
  · obtain ⟨φ, h⟩ := h; exact h.safe
  · exact h.1

theorem run_rest (hd : ∀ x, (e.digest x).length = 32) (hev : ∀ ev ∈ evs, EventOk ev)
    (hs : ((KxSys.init role).run e evs).stop = none) : ∃ φ, Rest e role φ ((KxSys.init role).run e evs).kx := by
  have h := run_inv (role := role) hd hev
  unfold SysInv at h
  rw [hs] at h
  exact h

/-! ## C12 -/

/-- **C12.** No sequence of packets and other events makes an assertion of the
key exchange code fail. -/
theorem C12_no_assertion (hd : ∀ x, (e.digest x).length = 32) (hev : ∀ ev ∈ evs, EventOk ev) :
    ((KxSys.init role).run e evs).stop ≠ some .assertFailed := by
  have h := run_inv (role := role) hd hev
  unfold SysInv at h
  split at h
  · rename_i hs; rw [hs]; simp
  · rename_i x hs; rw [hs]; simpa using h.2

/-- **C12.** Every history is one that `Phase.next` accepts. -/
theorem C12_order (hd : ∀ x, (e.digest x).length = 32) (hev : ∀ ev ∈ evs, EventOk ev) :
    ∃ φ, phaseOf ((KxSys.init role).run e evs).kx.log = some φ := (run_safe hd hev).phase

/-- **C12.** When an incoming cipher is installed, then since the previous one
(or since the start) exactly one KEXINIT was sent and one received, exactly one
shared secret was computed, exactly one NEWKEYS was sent, one outgoing cipher
installed, and one NEWKEYS received – the last thing that happened before. -/
theorem C12_incoming_cipher (hd : ∀ x, (e.digest x).length = 32) (hev : ∀ ev ∈ evs, EventOk ev)
    {pre post enc mac keys} (hl : ((KxSys.init role).run e evs).kx.log = pre ++ .installIn enc mac keys :: post) :
    ∃ a b, pre = a ++ b ∧ (a = [] ∨ ∃ a' enc mac k, a = a' ++ [.installIn enc mac k]) ∧ hasIn b = false ∧
      b.countP (Entry.isSent 20) = 1 ∧ b.countP (Entry.isRecv 20) = 1 ∧
      b.countP (fun | .agreed _ => true | _ => false) = 1 ∧
      b.countP (Entry.isSent 21) = 1 ∧
      b.countP (fun | .installOut .. => true | _ => false) = 1 ∧
      b.countP (Entry.isRecv 21) = 1 ∧ ∃ b' body, b = b' ++ [.recv (21 :: body)] := by
  have hs := run_safe (role := role) hd hev
  obtain ⟨φ, hφ⟩ := hs.phase
  rw [hl] at hφ
  obtain ⟨φ0, φ1, h0, h1⟩ := phaseOf_prefix hφ
  obtain ⟨a, b, seg⟩ := segment_of_phase _ h0
  simp only [Phase.next] at h1
  split at h1
  · rename_i hc
    simp only [Bool.and_eq_true, Bool.not_eq_true'] at hc
    obtain ⟨⟨⟨⟨⟨⟨c1, c2⟩, c3⟩, c4⟩, c5⟩, c6⟩, c7⟩ := hc
    have k1 := seg.kexSent; have k2 := seg.kexRecv; have k3 := seg.secret
    have k4 := seg.newSent; have k5 := seg.outSet; have k6 := seg.newRecv
    rw [c1] at k1; rw [c2, c7] at k2; rw [c3] at k3; rw [c4] at k4; rw [c5] at k5; rw [c6, c7] at k6
    have k2 : b.countP (Entry.isRecv 20) = 1 := by simpa using k2
    have k6 : b.countP (Entry.isRecv 21) = 1 := by simpa using k6
    refine ⟨a, b, seg.split, seg.fresh, seg.noIn, k1, k2, k3, k4, k5, k6, ?_⟩
    obtain ⟨_, pre', body, hpre⟩ := hs.every pre _ post hl
    rcases List.eq_nil_or_concat b with rfl | ⟨b', x, rfl⟩
    · simp at k6
    · have := seg.split
      rw [hpre, List.concat_eq_append, ← List.append_assoc] at this
      obtain ⟨_, h⟩ := List.append_inj' this rfl
      exact ⟨b', body, by rw [h, List.concat_eq_append]⟩
  · simp at h1

/-- **C12.** An outgoing cipher is installed directly after our NEWKEYS, once
per exchange, and only after the shared secret was computed. -/
theorem C12_outgoing_cipher (hd : ∀ x, (e.digest x).length = 32) (hev : ∀ ev ∈ evs, EventOk ev)
    {pre post enc mac keys} (hl : ((KxSys.init role).run e evs).kx.log = pre ++ .installOut enc mac keys :: post) :
    ∃ a b t, pre = a ++ b ++ [.agreed t, .sent [21]] ∧ (a = [] ∨ ∃ a' enc mac k, a = a' ++ [.installIn enc mac k]) ∧
      hasIn b = false ∧
      b.countP (Entry.isSent 20) = 1 ∧ b.countP (Entry.isRecv 20) = 1 ∧
      b.countP (fun | .installOut .. => true | _ => false) = 0 := by
  have hs := run_safe (role := role) hd hev
  obtain ⟨φ, hφ⟩ := hs.phase
  rw [hl] at hφ
  obtain ⟨φ0, φ1, h0, h1⟩ := phaseOf_prefix hφ
  obtain ⟨_, pre', hpre⟩ := hs.every pre _ post hl
  obtain ⟨pre'', t, hpre'⟩ := (hs.every pre' (.sent [21]) (.installOut enc mac keys :: post) (by rw [hl, hpre]; simp)).1 rfl
  subst hpre' hpre
  simp only [Phase.next] at h1
  split at h1
  · rename_i hc
    simp only [Bool.and_eq_true, Bool.not_eq_true'] at hc
    obtain ⟨⟨c4, c5⟩, c7⟩ := hc
    -- look at the phase two events earlier
    rw [phaseOf_snoc, phaseOf_snoc] at h0
    cases hp : phaseOf pre'' with
    | none => rw [hp] at h0; simp at h0
    | some ψ =>
      rw [hp] at h0
      simp only [Option.bind_some, Phase.next] at h0
      split at h0
      · rename_i hc'
        simp only [Bool.and_eq_true, Bool.not_eq_true'] at hc'
        obtain ⟨⟨⟨⟨d1, d2⟩, d3⟩, d4⟩, d5⟩ := hc'
        simp only [Option.bind_some, show isMsg 1 [21] = false from rfl, show isMsg 20 [21] = false from rfl,
          show isMsg 21 [21] = true from rfl, d1, d2, d4, d5] at h0
        have hout : ψ.outSet = false ∧ φ0.refused = false := by
          cases hnr : ψ.newRecv <;> rw [hnr] at h0 <;> simp at h0
          subst h0; simpa using c5
        obtain ⟨a, b, seg⟩ := segment_of_phase _ hp
        have k1 := seg.kexSent; have k2 := seg.kexRecv; have k5 := seg.outSet
        rw [d1] at k1; rw [d2, d5] at k2; rw [hout.1] at k5
        exact ⟨a, b, t, by rw [seg.split]; simp, seg.fresh, seg.noIn, k1, by simpa using k2, k5⟩
      · simp at h0
  · simp at h1

/-- Messages of the key exchange which may not come now are refused. -/
theorem dispatch_refuses {e role φ s msg body} (h : Rest e role φ s)
    (ha : φ.allowed (role == .server) msg = false) {s' : Kx} (hf : s'.flags = s.flags) (hr : s'.role = s.role)
    (hk : s'.kex = s.kex) : (s'.dispatch e msg body).2 = some .disconnect := by
  have hready : s'.kexReady = (φ.kexRecv && !φ.newSent) := by
    rw [← kexReady_eq h]; simp only [Kx.kexReady, hf, hk]
  have hrole : s'.role = role := hr.trans h.roleEq
  unfold Phase.allowed at ha
  unfold Kx.dispatch
  split at ha
  · rename_i hm; subst hm
    show (s'.handleKexInit e body).2 = _
    unfold Kx.handleKexInit
    have : (s'.flags.kexinitReceived || s'.flags.newkeysSent || s'.flags.newkeysReceived) = true := by
      rw [hf, h.fRecv, h.fNewSent]
      cases h1 : φ.kexRecv <;> cases h2 : φ.newSent <;> simp [h1, h2] at ha ⊢
    simp only [this, cond_true]
  split at ha
  · rename_i hm; subst hm
    show s'.handleNewKeys.2 = _
    unfold Kx.handleNewKeys
    have : (!s'.flags.kexinitSent || !s'.flags.kexinitReceived || !s'.flags.newkeysSent || s'.flags.newkeysReceived) = true := by
      rw [hf, h.fNewSent]
      rw [h.outNew, h.noNewRecv] at ha
      cases h2 : φ.newSent <;> simp [h2] at ha ⊢
    simp only [this, cond_true]
  split at ha
  · rename_i hm; subst hm
    show (s'.handleECDHKexInit e body).2 = _
    unfold Kx.handleECDHKexInit
    rw [hready, hrole]
    cases role with
    | client => rfl
    | server =>
      have : (φ.kexRecv && !φ.newSent) = false := by
        rw [h.secretNew] at ha
        cases h1 : φ.kexRecv
        · rfl
        · rw [h.kexRecvSent h1, h1] at ha
          simpa using ha
      rw [this]; rfl
  split at ha
  · rename_i hm; subst hm
    show (s'.handleECDHKexInitReply e body).2 = _
    unfold Kx.handleECDHKexInitReply
    rw [hready, hrole]
    cases role with
    | server => rfl
    | client =>
      have : (φ.kexRecv && !φ.newSent) = false := by
        rw [h.secretNew] at ha
        cases h1 : φ.kexRecv
        · rfl
        · rw [h.kexRecvSent h1, h1] at ha
          simpa using ha
      rw [this]; rfl
  · simp at ha

/-- A packet directly after a KEXINIT that announced a wrong guess, during the
first exchange: it is dropped if it is a key exchange packet. -/
def AfterWrongGuess (e : KexEnv) (role : Role) (log : List Entry) : Prop :=
  hasIn log = false ∧ ∃ l k p, received log = l ++ [20 :: k] ∧ parseKexInit.parse k = some p ∧
    wrongGuess e role p = true

theorem run_role {e y evs} : (KxSys.run e y evs).kx.role = y.kx.role := by
  unfold KxSys.run
  induction evs generalizing y with
  | nil => rfl
  | cons ev evs ih =>
    rw [List.foldl_cons, ih]
    obtain ⟨s, stop⟩ := y
    unfold KxSys.step
    cases stop with
    | some x => rfl
    | none =>
      cases ev with
      | version v =>
        simp only [Bool.cond_eq_ite]
        split
        · rfl
        · refine Grow.role (Grow.finish ?_)
          unfold Kx.onVersion
          have h0 : Grow s ({ s with peerVersion := v, versionExchanged := true }.emit (.version v)) := ⟨⟨_, rfl⟩, rfl, rfl⟩
          simp only [Bool.cond_eq_ite]
          split
          · exact h0.trans Frame.sendKexInit.grow
          · exact h0
      | packet raw claim =>
        simp only [Bool.cond_eq_ite]
        split
        · exact Grow.role (Grow.finish Grow.handleRawPacket)
        · rfl
      | authenticated =>
        simp only [Bool.cond_eq_ite]
        split
        · refine Grow.role (Grow.finish ?_)
          unfold Kx.setAuthenticated
          simp only [Bool.cond_eq_ite]
          split
          · exact Grow.rfl'
          · exact ⟨⟨[], by simp⟩, rfl, rfl⟩
        · rfl
      | rekeyTimer =>
        simp only [Bool.cond_eq_ite]
        split
        · refine Grow.role (Grow.finish ?_)
          unfold Kx.initiateRekey
          simp only [Bool.cond_eq_ite]
          split
          · exact Grow.rfl'
          split
          · exact Grow.rfl'
          · exact Frame.sendKexInit.grow
        · rfl
      | writable more => exact onBufferedWrite_grow.2.2

/-- What `HandlePacket` does, unless it drops the packet. -/
theorem handlePacket_cases {e role φ s msg body claim} (h : Rest e role φ s) (hs : StrictInv e s)
    (hg : ¬ (AfterWrongGuess e role s.log ∧ isKex msg = true)) :
    ((s.handleRawPacket e (msg :: body) claim).2 = some .disconnect ∧
      (s.handleRawPacket e (msg :: body) claim).1 = s.emit (.recv (msg :: body)) ∧
      isAllowedKexMessage msg role = false) ∨
    ∃ f i, s.handleRawPacket e (msg :: body) claim = ((s.withStrict f i).emit (.recv (msg :: body))).handlePacket₂ e msg body claim := by
  unfold Kx.handleRawPacket
  simp only
  unfold Kx.handlePacket
  rw [Bool.cond_eq_ite]; split
  · exact .inr ⟨s.firstPacketWasKexinit, s.ignoreNextKexPacket, rfl⟩
  rename_i hin
  replace hin : s.inputEncrypted = false := by simpa [Kx.emit] using hin
  rw [Bool.cond_eq_ite]; split
  · exact .inr ⟨s.firstPacketWasKexinit && msg == MSG_KEXINIT, s.ignoreNextKexPacket, rfl⟩
  rename_i hkr
  replace hkr : s.flags.kexinitReceived = true := by simpa [Kx.emit] using hkr
  rw [Bool.cond_eq_ite]; split
  · rename_i hi
    obtain ⟨l, k, p, rest, d1, d2, d3, d4, d5, d6⟩ := hs.during hin hkr
    obtain ⟨rfl, d7⟩ := d6 hi
    have hwg : AfterWrongGuess e role s.log :=
      ⟨by rw [← h.inEnc]; exact hin, l, k, p, d1, d2, by rw [← h.roleEq]; exact d7⟩
    simp only
    rw [Bool.cond_eq_ite]; split
    · exact absurd ⟨hwg, ‹_›⟩ hg
    · exact .inr ⟨s.firstPacketWasKexinit, false, rfl⟩
  rw [Bool.cond_eq_ite]; split
  · rename_i hst
    refine .inl ⟨rfl, rfl, ?_⟩
    simp only [Bool.and_eq_true, Bool.not_eq_true'] at hst
    rw [← h.roleEq]; exact hst.2
  · exact .inr ⟨s.firstPacketWasKexinit, s.ignoreNextKexPacket, rfl⟩

/-- **C12.** A key exchange packet that may not come now disconnects, except a
wrongly guessed packet of the first exchange (RFC 4253 section 7), which is
dropped. -/
theorem C12_out_of_order (hd : ∀ x, (e.digest x).length = 32) (hev : ∀ ev ∈ evs, EventOk ev)
    {φ msg body} (hstop : ((KxSys.init role).run e evs).stop = none)
    (hv : peerVersion ((KxSys.init role).run e evs).kx.log ≠ none)
    (hφ : phaseOf ((KxSys.init role).run e evs).kx.log = some φ)
    (ha : φ.allowed (role == .server) msg = false)
    (hg : ¬ (AfterWrongGuess e role ((KxSys.init role).run e evs).kx.log ∧ isKex msg = true)) :
    ((KxSys.init role).run e (evs ++ [.packet (msg :: body) .unclaimed])).stop = some .disconnect := by
  obtain ⟨φ', h⟩ := run_rest hd hev hstop
  rw [h.phase] at hφ; cases hφ
  have hstr := run_strict (e := e) (evs := evs) (y := KxSys.init role) (fun _ => StrictInv.init e role) hev hstop
  rw [run_snoc]
  generalize hy : (KxSys.init role).run e evs = y at *
  obtain ⟨s, stop⟩ := y
  simp only at hstop hv h hstr hg; subst hstop
  have hver : s.versionExchanged = true := by
    cases hvx : s.versionExchanged with
    | true => rfl
    | false => exact absurd (h.vFirst hvx).2.2 hv
  simp only [KxSys.step, hver, cond_true, finish_stop]
  rcases handlePacket_cases (body := body) (claim := .unclaimed) h hstr hg with ⟨h1, _⟩ | ⟨f, i, h1⟩
  · exact h1
  · rw [h1]
    exact dispatch_refuses h ha rfl rfl rfl

/-- Non-vacuity: in the middle of an exchange NEWKEYS is refused, a second
KEXINIT is refused, a reply is refused by a server. -/
example : (phaseOf (demoServer (demoServerEvents.take 2)).kx.log).map (fun φ =>
      [20, 21, 30, 31].map (φ.allowed true)) = some [false, false, true, false] ∧
    (demoServer (demoServerEvents.take 2)).stop = none ∧
    (received (demoServer (demoServerEvents.take 2)).kx.log).length = 1 ∧
    (demoServer (demoServerEvents.take 2 ++ [.packet [21] .unclaimed])).stop = some .disconnect := by
  decide +kernel

/-- Non-vacuity: both ciphers were installed, twice each, in a history with two
exchanges. -/
example : (demoServer demoRekeyEvents).kx.log.countP (fun | .installIn .. => true | _ => false) = 2 ∧
    (demoServer demoRekeyEvents).kx.log.countP (fun | .installOut .. => true | _ => false) = 2 := by
  decide +kernel

/-! ## C13 -/

/-- **C13.** A client sends NEWKEYS only directly after it received a reply whose
host key the verifier accepted and whose signature verified, with that key, over
the hash of exactly this exchange: both identification strings, both KEXINITs
(the last ones sent and received), the ephemeral keys that were sent and
received, and the secret computed from them. -/
theorem C13_newkeys (hd : ∀ x, (e.digest x).length = 32) (hev : ∀ ev ∈ evs, EventOk ev)
    {pre p post} (hl : ((KxSys.init .client).run e evs).kx.log = pre ++ .sent p :: post) (hp : isMsg 21 p = true) :
    ∃ pre' t sig accepts, pre = pre' ++ [.recv (31 :: ecdhReplyBody t.hostKey t.serverEph sig), .agreed t] ∧
      e.verifier = some accepts ∧ accepts t.hostKey = true ∧
      e.verify t.hostKey (e.digest (hashInput t)) sig = true ∧
      t.clientVersion = e.ownVersion ∧ Spec.peerVersion pre' = some t.serverVersion ∧
      lastSent 20 pre' = some t.clientKexinit ∧ lastRecv 20 pre' = some t.serverKexinit ∧
      lastSent 30 pre' = some (ecdhInitBody t.clientEph) ∧
      ∃ m n, e.ephPub m n = t.clientEph ∧ e.shared m n t.serverEph = some t.secret := by
  have hs := run_safe (role := .client) hd hev
  obtain ⟨pre', t, rfl⟩ := (hs.every pre _ post hl).1 hp
  obtain ⟨pre'', sig, rfl, ⟨accepts, h1, h2⟩, h3, h4, h5, h6, h7, h8, m, n, p, h9, h10, _⟩ :=
    hs.every pre' (.agreed t) (.sent p :: post) (by rw [hl]; simp)
  exact ⟨pre'', t, sig, accepts, by simp, h1, h2, h3, h4, h5, h6, h7, h8, m, n, h9, h10⟩

/-- **C13.** A client installs an outgoing cipher only directly after that NEWKEYS. -/
theorem C13_cipher (hd : ∀ x, (e.digest x).length = 32) (hev : ∀ ev ∈ evs, EventOk ev)
    {pre enc mac keys post}
    (hl : ((KxSys.init .client).run e evs).kx.log = pre ++ .installOut enc mac keys :: post) :
    ∃ pre' t sig accepts, pre = pre' ++ [.recv (31 :: ecdhReplyBody t.hostKey t.serverEph sig), .agreed t, .sent [21]] ∧
      e.verifier = some accepts ∧ accepts t.hostKey = true ∧
      e.verify t.hostKey (e.digest (hashInput t)) sig = true := by
  have hs := run_safe (role := .client) hd hev
  obtain ⟨_, pre', rfl⟩ := hs.every pre _ post hl
  obtain ⟨pre'', t, sig, accepts, rfl, h1, h2, h3, _⟩ := C13_newkeys (e := e) (evs := evs) hd hev (pre := pre') (p := [21])
    (post := .installOut enc mac keys :: post) (by rw [hl]; simp) rfl
  exact ⟨pre'', t, sig, accepts, by simp, h1, h2, h3⟩

/-- Non-vacuity: the client of the demo completes an exchange; with another
signature, or another host key, it does not. -/
example : (demoClient demoClientEvents).kx.log.countP (Entry.isSent 21) = 1 ∧
    (demoClient (demoClient₁ ++ [.packet (31 :: ecdhReplyBody demoTranscript.hostKey demoTranscript.serverEph
      [1, 2, 3]) .unclaimed])).stop = some .disconnect ∧
    (demoClient (demoClient₁ ++ [.packet (31 :: ecdhReplyBody (ascii "other key") demoTranscript.serverEph
      (demoEnv.digest (hashInput demoTranscript))) .unclaimed])).stop = some .disconnect := by
  decide +kernel

/-! ## C61 -/

/-- **C61.** A server sends NEWKEYS only directly after its reply, which answers
the client's last packet, and whose signature was made with the host key chosen
for this client over the hash of exactly this exchange. -/
theorem C61_server_signs (hd : ∀ x, (e.digest x).length = 32) (hev : ∀ ev ∈ evs, EventOk ev)
    {pre p post} (hl : ((KxSys.init .server).run e evs).kx.log = pre ++ .sent p :: post) (hp : isMsg 21 p = true) :
    ∃ pre' t sig hk alg k, pre = pre' ++ [.recv (30 :: ecdhInitBody t.clientEph),
        .sent (31 :: ecdhReplyBody t.hostKey t.serverEph sig), .agreed t] ∧
      e.sign hk (e.digest (hashInput t)) alg = some sig ∧ t.hostKey = e.hostKeyBlob hk ∧
      parseKexInit.parse t.clientKexinit = some k ∧ e.chooseHostKey k.hostKey = some (hk, alg) ∧
      t.serverVersion = e.ownVersion ∧ Spec.peerVersion pre' = some t.clientVersion ∧
      lastSent 20 pre' = some t.serverKexinit ∧ lastRecv 20 pre' = some t.clientKexinit ∧
      ∃ m n, e.ephPub m n = t.serverEph ∧ e.shared m n t.clientEph = some t.secret := by
  have hs := run_safe (role := .server) hd hev
  obtain ⟨pre', t, rfl⟩ := (hs.every pre _ post hl).1 hp
  obtain ⟨pre'', sig, hk, alg, k, rfl, h1, h2, h3, h4, h5, h6, h7, h8, m, n, h9, h10, _⟩ :=
    hs.every pre' (.agreed t) (.sent p :: post) (by rw [hl]; simp)
  exact ⟨pre'', t, sig, hk, alg, k, by simp, h2, h1, h3, h4, h5, h6, h7, h8, m, n, h9, h10⟩

example : (demoServer demoRekeyEvents).kx.log.countP (Entry.isSent 21) = 2 := by decide +kernel

/-! ## C14 -/

/-- **C14.** The session identifier is the hash of the first completed exchange. -/
theorem C14_first_hash (hd : ∀ x, (e.digest x).length = 32) (hev : ∀ ev ∈ evs, EventOk ev) :
    ((KxSys.init role).run e evs).kx.ks.sessionId =
      (match firstAgreed ((KxSys.init role).run e evs).kx.log with
      | none => []
      | some t => e.digest (hashInput t)) := (run_safe hd hev).session

/-- **C14.** Once set, the session identifier never changes, whatever happens. -/
theorem C14_fixed (hd : ∀ x, (e.digest x).length = 32) {evs evs' : List KxEvent}
    (hev : ∀ ev ∈ evs ++ evs', EventOk ev) (hset : ((KxSys.init role).run e evs).kx.ks.sessionId ≠ []) :
    ((KxSys.init role).run e (evs ++ evs')).kx.ks.sessionId = ((KxSys.init role).run e evs).kx.ks.sessionId := by
  have h1 := (run_safe (role := role) hd (fun ev h => hev ev (List.mem_append_left _ h))).session
  have h2 := (run_safe (role := role) hd hev).session
  rw [h2]; rw [h1] at hset ⊢
  have : (KxSys.init role).run e (evs ++ evs') = ((KxSys.init role).run e evs).run e evs' := by simp [KxSys.run]
  rw [this]
  obtain ⟨ext, hx⟩ := run_grow (e := e) (y := (KxSys.init role).run e evs) (evs := evs')
  rw [hx]
  unfold sessionIdOf at hset ⊢
  have : firstAgreed (((KxSys.init role).run e evs).kx.log ++ ext) =
      (firstAgreed ((KxSys.init role).run e evs).kx.log).or (firstAgreed ext) := by
    simp [firstAgreed, List.findSome?_append]
  rw [this]
  cases hf : firstAgreed ((KxSys.init role).run e evs).kx.log with
  | none => rw [hf] at hset; simp at hset
  | some t => rfl

/-- **C14.** It is set before any cipher is installed. -/
theorem C14_before_ciphers (hd : ∀ x, (e.digest x).length = 32) (hev : ∀ ev ∈ evs, EventOk ev)
    {pre x post} (hl : ((KxSys.init role).run e evs).kx.log = pre ++ x :: post)
    (hx : ∃ enc mac keys, x = .installOut enc mac keys ∨ x = .installIn enc mac keys) :
    ∃ t, firstAgreed pre = some t ∧
      ((KxSys.init role).run e evs).kx.ks.sessionId = e.digest (hashInput t) := by
  have hs := run_safe (role := role) hd hev
  have hin : ∃ t, lastAgreed pre = some t := by
    have := hs.every pre x post hl
    obtain ⟨enc, mac, keys, rfl | rfl⟩ := hx
    · obtain ⟨⟨t, h, _⟩, _⟩ := this; exact ⟨t, h⟩
    · obtain ⟨⟨t, h, _⟩, _⟩ := this; exact ⟨t, h⟩
  have hfirst : ∃ t, firstAgreed pre = some t := by
    obtain ⟨t, h⟩ := hin
    cases hf : firstAgreed pre with
    | some t => exact ⟨t, rfl⟩
    | none =>
      exfalso
      simp only [firstAgreed, List.findSome?_eq_none_iff] at hf
      simp only [lastAgreed] at h
      obtain ⟨y, hy, h⟩ := List.exists_of_findSome?_eq_some h
      have := hf y (by simpa using hy)
      rw [this] at h; simp at h
  obtain ⟨t, ht⟩ := hfirst
  refine ⟨t, ht, ?_⟩
  rw [hs.session, hl]
  unfold sessionIdOf
  have : firstAgreed (pre ++ x :: post) = some t := by
    simp only [firstAgreed, List.findSome?_append] at ht ⊢
    rw [ht]; rfl
  rw [this]

example : (demoServer demoServerEvents).kx.ks.sessionId ≠ [] ∧
    (demoServer demoServerEvents).kx.ks.sessionId = (demoServer demoRekeyEvents).kx.ks.sessionId ∧
    (lastAgreed (demoServer demoRekeyEvents).kx.log).map (demoEnv.digest ∘ hashInput) ≠
      some (demoServer demoRekeyEvents).kx.ks.sessionId := by
  decide +kernel

end Lukko
