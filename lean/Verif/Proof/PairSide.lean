import Verif.Model.Pair
import Verif.Prop.Messages
import Verif.Proof.KexInv
/-
  One side of a pair: what its functions do when the other side behaves.
-/
namespace Lukko
open Spec Model

/-- What makes a client and a server compatible. -/
structure Compatible (c s : KexEnv) (hk : Nat) (alg : Bytes) : Prop where
  digest : c.digest = s.digest
  size : ∀ x, (s.digest x).length = 32
  cookieC : ∀ i, (c.cookie i).length = 16
  cookieS : ∀ i, (s.cookie i).length = 16
  /-- the messages of the key exchange fit into packets -/
  algsFit : s.hostKeyAlgorithms.length ≤ 60000
  blobFit : (s.hostKeyBlob hk).length ≤ 20000
  ephFitC : ∀ n, (c.ephPub .curve25519 n).length ≤ 10000
  ephFitS : ∀ n, (s.ephPub .curve25519 n).length ≤ 10000
  /-- the server has a host key the client can use -/
  chosen : s.chooseHostKey allPublicKeyAlgorithms = some (hk, alg)
  /-- its signatures verify -/
  signs : ∀ h, h.length = 32 → ∃ sig, s.sign hk h alg = some sig ∧ sig.length ≤ 20000 ∧ c.verify (s.hostKeyBlob hk) h sig = true
  /-- the client knows the host key -/
  known : ∃ accepts, c.verifier = some accepts ∧ accepts (s.hostKeyBlob hk) = true
  /-- both sides of the Diffie-Hellman exchange compute the same secret -/
  shared : ∀ n m, ∃ secret, c.shared .curve25519 n (s.ephPub .curve25519 m) = some secret ∧
    s.shared .curve25519 m (c.ephPub .curve25519 n) = some secret

/-! ### Projections of the log -/

theorem sentPackets_app (a b : List Entry) : sentPackets (a ++ b) = sentPackets a ++ sentPackets b := by
  simp [sentPackets]
theorem received_app (a b : List Entry) : received (a ++ b) = received a ++ received b := by simp [received]
theorem agreements_append (a b : List Entry) : agreements (a ++ b) = agreements a ++ agreements b := by simp [agreements]
theorem outCiphers_append (a b : List Entry) : outCiphers (a ++ b) = outCiphers a ++ outCiphers b := by simp [outCiphers]
theorem inCiphers_append (a b : List Entry) : inCiphers (a ++ b) = inCiphers a ++ inCiphers b := by simp [inCiphers]

/-- Notifications only. -/
structure Unheard (x : List Entry) : Prop where
  sent : sentPackets x = []
  recv : received x = []
  agreed : agreements x = []
  outs : outCiphers x = []
  ins : inCiphers x = []

theorem Unheard.nil : Unheard [] := ⟨rfl, rfl, rfl, rfl, rfl⟩
theorem Unheard.blocked : Unheard [.blocked] := ⟨rfl, rfl, rfl, rfl, rfl⟩
theorem Unheard.unblocked : Unheard [.unblocked] := ⟨rfl, rfl, rfl, rfl, rfl⟩
theorem Unheard.encrypted : Unheard [.encrypted] := ⟨rfl, rfl, rfl, rfl, rfl⟩
theorem Unheard.append {a b} (h : Unheard a) (h' : Unheard b) : Unheard (a ++ b) := by
  constructor
  · rw [sentPackets_app, h.sent, h'.sent]; rfl
  · rw [received_app, h.recv, h'.recv]; rfl
  · rw [agreements_append, h.agreed, h'.agreed]; rfl
  · rw [outCiphers_append, h.outs, h'.outs]; rfl
  · rw [inCiphers_append, h.ins, h'.ins]; rfl

/-! ### NEWKEYS and ciphers -/

/-- Nothing to do with NEWKEYS. -/
def quietEntry : Entry → Bool
  | .sent p | .recv p => !isMsg 21 p
  | .installOut .. | .installIn .. => false
  | _ => true

/-- Every NEWKEYS is followed by its cipher, and there are no other ciphers. -/
inductive Paired : List Entry → Prop
  | nil : Paired []
  | other {x l} : quietEntry x = true → Paired l → Paired (x :: l)
  | out {p enc mac keys l} : isMsg 21 p = true → Paired l → Paired (.sent p :: .installOut enc mac keys :: l)
  | in_ {p enc mac keys l} : isMsg 21 p = true → Paired l → Paired (.recv p :: .installIn enc mac keys :: l)

theorem Paired.append {a b} (h : Paired a) (h' : Paired b) : Paired (a ++ b) := by
  induction h with
  | nil => exact h'
  | other hx _ ih => exact .other hx ih
  | out hp _ ih => exact .out hp ih
  | in_ hp _ ih => exact .in_ hp ih

theorem Paired.quiet {l : List Entry} (h : l.all quietEntry = true) : Paired l := by
  induction l with
  | nil => exact .nil
  | cons x l ih => simp only [List.all_cons, Bool.and_eq_true] at h; exact .other h.1 (ih h.2)

theorem Unheard.paired {x} (h : Unheard x) : Paired x := by
  refine .quiet (List.all_eq_true.2 fun y hy => ?_)
  obtain ⟨h1, h2, _, h4, h5⟩ := h
  simp only [sentPackets, received, outCiphers, inCiphers, List.filterMap_eq_nil_iff] at h1 h2 h4 h5
  have h1 := h1 y hy
  have h2 := h2 y hy
  have h4 := h4 y hy
  have h5 := h5 y hy
  cases y <;> first | rfl | (simp at h1 h2 h4 h5)

/-! ### Sessions and keys as functions of the agreements -/

/-- The session identifier. -/
def sessionOf (digest : Bytes → Bytes) : List Transcript → Bytes
  | [] => []
  | t :: _ => digest (hashInput t)

/-- The encryption algorithm both prefer. -/
def pairEnc : Bytes := ascii "chacha20-poly1305@openssh.com"
def pairMac : Bytes := ascii "hmac-sha2-256"

/-- The cipher that belongs to an agreement. -/
def cipherOf (digest : Bytes → Bytes) (sid : Bytes) (w : Way) (t : Transcript) : Bytes × Bytes × Keys :=
  (pairEnc, pairMac, keysFor digest t.secret (digest (hashInput t)) sid 1 w)

/-- The ciphers that belong to agreements. -/
def ciphersOf (digest : Bytes → Bytes) (w : Way) (ts : List Transcript) : List (Bytes × Bytes × Keys) :=
  ts.map (cipherOf digest (sessionOf digest ts) w)

theorem sessionOf_snoc {digest ts t} (h : ts ≠ []) : sessionOf digest (ts ++ [t]) = sessionOf digest ts := by
  cases ts with
  | nil => exact absurd rfl h
  | cons a l => rfl

theorem ciphersOf_snoc {digest w ts t} : ciphersOf digest w (ts ++ [t]) =
    ciphersOf digest w ts ++ [cipherOf digest (sessionOf digest (ts ++ [t])) w t] := by
  cases ts with
  | nil => rfl
  | cons a l => simp [ciphersOf, sessionOf]

/-- A KEXINIT of this side (without message number). -/
def kexBody (e : KexEnv) (role : Role) (i : Nat) : Bytes :=
  Spec.kexInitBody (e.cookie i) [(e.proposal role).kex, (e.proposal role).hostKey, (e.proposal role).encC2S,
    (e.proposal role).encS2C, (e.proposal role).macC2S, (e.proposal role).macS2C,
    (e.proposal role).compC2S, (e.proposal role).compS2C, (e.proposal role).langC2S, (e.proposal role).langS2C] false

/-- Agreements whose keys are installed in both directions. -/
def doneOf (nk : Bool) (ts : List Transcript) : List Transcript := bif nk then ts.dropLast else ts

/-- Invariant of one side; `pv` is the identification string of the other. -/
structure PairSide (e : KexEnv) (pv : Bytes) (hk : Nat) (alg : Bytes) (role : Role) (s : Kx) : Prop where
  roleEq : s.role = role
  nkr : s.flags.newkeysReceived = false
  nk : s.flags.newkeysSent = true → s.flags.kexinitSent = true ∧ s.flags.kexinitReceived = true
  recvSent : s.flags.kexinitReceived = true → s.flags.kexinitSent = true
  quiet : s.versionExchanged = false → s.flags = {} ∧ agreements s.log = []
  started : role = .client → s.versionExchanged = true → s.flags.kexinitSent = true ∨ agreements s.log ≠ []
  peer : s.versionExchanged = true → s.peerVersion = pv
  first : s.firstPacketWasKexinit = true
  ign : s.ignoreNextKexPacket = false
  my : s.flags.kexinitSent = true → ∃ i, s.myKexinit = kexBody e role i
  algs : s.flags.kexinitReceived = true → s.encC2S = allEncryptionAlgorithms ∧ s.encS2C = allEncryptionAlgorithms ∧
    s.macC2S = allMacAlgorithms ∧ s.macS2C = allMacAlgorithms
  ext : s.flags.kexinitReceived = true → s.peerWantsExtInfo = false
  kex : s.flags.kexinitReceived = true → s.flags.newkeysSent = false → ∃ n, s.kex = some (.curve25519, n)
  host : role = .server → s.flags.kexinitReceived = true → s.flags.newkeysSent = false →
    s.hostKey = some hk ∧ s.hostKeyAlgorithm = alg
  outEnc : s.outputEncrypted = !(agreements s.log).isEmpty
  inEnc : s.inputEncrypted = !(doneOf s.flags.newkeysSent (agreements s.log)).isEmpty
  some_ : s.flags.newkeysSent = true → agreements s.log ≠ []
  auth : s.authenticated = true → s.isEncrypted = true
  sid : s.ks.sessionId = sessionOf e.digest (agreements s.log)
  keys : ∀ ts t, s.flags.newkeysSent = true → agreements s.log = ts ++ [t] →
    s.ks.newKeysIn = keysFor e.digest t.secret (e.digest (hashInput t)) (sessionOf e.digest (ts ++ [t])) 1
      (wayOf role .incoming)
  outs : outCiphers s.log = ciphersOf e.digest (wayOf role .outgoing) (agreements s.log)
  ins : inCiphers s.log = ciphersOf e.digest (wayOf role .incoming) (doneOf s.flags.newkeysSent (agreements s.log))
  count : kexInits (sentPackets s.log) =
    (agreements s.log).length + (bif s.flags.kexinitSent && !s.flags.newkeysSent then 1 else 0)
  paired : Paired s.log

/-! ### Constants -/

theorem pair_negotiated_server : findCommonAlgorithm allClientKexAlgorithms allServerKexAlgorithms = ascii "curve25519-sha256" := by
  decide +kernel
theorem pair_makeKex : makeKex (ascii "curve25519-sha256") = some .curve25519 := by decide +kernel
theorem pair_enc (role dir) : findNegotiatedAlgorithm role dir allEncryptionAlgorithms allEncryptionAlgorithms
    allEncryptionAlgorithms = pairEnc := by cases role <;> cases dir <;> decide +kernel
theorem pair_mac (role dir) : findNegotiatedAlgorithm role dir allMacAlgorithms allMacAlgorithms
    allMacAlgorithms = pairMac := by cases role <;> cases dir <;> decide +kernel
theorem pair_cipher : makeCipher pairEnc pairMac = some .chacha20poly1305 := by decide +kernel
theorem pair_ext_c : stringListContains allClientKexAlgorithms (ascii "ext-info-c") = false := by decide +kernel
theorem pair_ext_s : stringListContains allServerKexAlgorithms (ascii "ext-info-s") = false := by decide +kernel

/-- The other role. -/
def otherRole : Role → Role
  | .client => .server
  | .server => .client

/-- What we need of the messages of a side. -/
structure PairFits (e : KexEnv) (role : Role) : Prop where
  cookie : ∀ i, (e.cookie i).length = 16
  algs : (e.proposal role).hostKey.length ≤ 60000

theorem kexBody_fits {e role} (h : PairFits e role) (i : Nat) :
    (∃ ser, makeKexInit (e.cookie i) (e.proposal role) = .ok ser ∧ ser.since 5 = 20 :: kexBody e role i ∧
      ser.since 6 = kexBody e role i) ∧
    parseKexInit.parse (kexBody e role i) = some ⟨(e.proposal role).kex, (e.proposal role).hostKey,
      allEncryptionAlgorithms, allEncryptionAlgorithms, allMacAlgorithms, allMacAlgorithms, false⟩ := by
  have hkex : (e.proposal role).kex.length ≤ 100 := by
    cases role
    · show allServerKexAlgorithms.length ≤ 100; decide +kernel
    · show allClientKexAlgorithms.length ≤ 100; decide +kernel
  have he : allEncryptionAlgorithms.length ≤ 200 := by decide +kernel
  have hm : allMacAlgorithms.length ≤ 20 := by decide +kernel
  have hn : (ascii "none").length ≤ 4 := by decide +kernel
  have ha := h.algs
  have h5 := C05_kexinit (e.cookie i) (e.proposal role) (h.cookie i) (by omega) (by omega)
    (by simp only [KexEnv.proposal]; omega) (by simp only [KexEnv.proposal]; omega)
    (by simp only [KexEnv.proposal]; omega) (by simp only [KexEnv.proposal]; omega)
    (by simp only [KexEnv.proposal]; omega) (by simp only [KexEnv.proposal]; omega)
    (by simp only [KexEnv.proposal, List.length_nil]; omega) (by simp only [KexEnv.proposal, List.length_nil]; omega)
  refine ⟨?_, h5.2.parse⟩
  have hb := h5.1
  unfold Builds at hb
  rw [if_pos] at hb
  · refine ⟨_, hb, ?_, ?_⟩ <;> simp [Ser.since, kexBody]
  · have := h.cookie i
    have hl : ∀ l : Bytes, (Spec.str l).length = 4 + l.length := by intro l; simp [Spec.str, Spec.u32]; omega
    simp only [Spec.kexInitBody, List.map_cons, List.map_nil, List.flatten_cons, List.flatten_nil, List.length_append, hl, Spec.bool, Spec.u32,
      List.length_cons, List.length_nil, BUFFER_SIZE]
    simp only [KexEnv.proposal, List.length_nil] at *
    omega

end Lukko
