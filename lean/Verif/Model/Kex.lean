import Verif.Model.Messages
import Verif.Model.Algorithms
import Verif.Spec.Kex
/-
  Key exchange: /repo/src/ssh/Connection.cxx, KexState.cxx, KexHash.cxx,
  KexCurve25519.cxx.

  Packets are payloads (message number first); framing and encryption are
  modelled in Input.lean and Output.lean.  `log` is a record of what happened.
-/
namespace Lukko.Model
open Lukko.Spec (Transcript Keys Entry)

/-! ## Exchange hash and key derivation -/

/-- The bytes hashed by `CalcKexHash`, KexHash.cxx:12-53 (the spans in the order
in which they are passed to `Digest`). -/
def kexHashInput (clientVersion serverVersion clientKexinit serverKexinit hostKeyBlob clientEph serverEph
    secret : Bytes) : Bytes :=
  u32Bytes clientVersion.length ++ clientVersion ++
  u32Bytes serverVersion.length ++ serverVersion ++
  u32Bytes (clientKexinit.length + 1) ++ [MSG_KEXINIT] ++ clientKexinit ++
  u32Bytes (serverKexinit.length + 1) ++ [MSG_KEXINIT] ++ serverKexinit ++
  u32Bytes hostKeyBlob.length ++ hostKeyBlob ++
  u32Bytes clientEph.length ++ clientEph ++
  u32Bytes serverEph.length ++ serverEph ++
  secret

/-- The loop of `DeriveKey`, KexState.cxx:28-34; `fuel` bounds the iterations
(the loop would not terminate for a digest of size zero). -/
def deriveLoop (digest : Bytes → Bytes) (secret hash : Bytes) (need : Nat) : Nat → Bytes → Bytes
  | 0, buf => buf
  | fuel + 1, buf =>
    if buf.length < need then
      deriveLoop digest secret hash need fuel (buf ++ digest (secret ++ hash ++ buf))
    else buf

/-- `DeriveKey`, KexState.cxx:14-37. -/
def deriveKey (digest : Bytes → Bytes) (id : UInt8) (need : Nat) (hash secret sessionId : Bytes) : Bytes :=
  deriveLoop digest secret hash need need (digest (secret ++ hash ++ [id] ++ sessionId))

/-- KexState.hxx:30 -/
abbrev WE_NEED : Nat := 64

/-- `KexState`, KexState.hxx:21-42. -/
structure KexState where
  newKeysIn : Keys := ⟨[], [], []⟩
  newKeysOut : Keys := ⟨[], [], []⟩
  sessionId : Bytes := []
  deriving DecidableEq, Repr

/-- The second half of `KexState::DeriveKeys` for one direction,
KexState.cxx:59-72: `keys[i]` is derived with the letter `'A' + i`. -/
def pickKeys (digest : Bytes → Bytes) (hash secret sessionId : Bytes) (role : Role) (direction : Direction) : Keys :=
  let key (i : UInt8) := deriveKey digest (65 + i) WE_NEED hash secret sessionId
  let ctos := (role != .server && direction == .outgoing) || (role == .server && direction == .incoming)
  { iv := key (bif ctos then 0 else 1)
    key := key (bif ctos then 2 else 3)
    mac := key (bif ctos then 4 else 5) }

/-- `KexState::DeriveKeys`, KexState.cxx:39-73; `none` is a `std::runtime_error`. -/
def KexState.deriveKeys (k : KexState) (digest : Bytes → Bytes) (hash secret : Bytes) (role : Role)
    (initial : Bool) : Option KexState :=
  let sessionId :=
    if initial then (if k.sessionId ≠ [] then none else some hash)
    else (if k.sessionId = [] then none else some k.sessionId)
  sessionId.map fun sid =>
    { newKeysIn := pickKeys digest hash secret sid role .incoming
      newKeysOut := pickKeys digest hash secret sid role .outgoing
      sessionId := sid }

/-- `Curve25519Kex::GenerateSharedSecret` with `KexCurve25519CalcSharedKey`,
KexCurve25519.cxx:38-82.  `scalarmult` is libsodium's
`crypto_scalarmult_curve25519` with our secret key (`none` if it fails). -/
def curve25519Secret (scalarmult : Bytes → Option Bytes) (peerEph : Bytes) : Option Bytes :=
  if peerEph.length ≠ 32 then none
  else match scalarmult peerEph with
    | none => none
    | some k =>
      if k.all (· == 0) then none
      else match Ser.withLength (·.writeBignum2 k) Ser.empty with
        | .ok s => some s.buf
        | .error _ => none

/-! ## The connection -/

/-- What the key exchange uses but this model does not define. -/
structure KexEnv where
  /-- our identification string without CR LF -/
  ownVersion : Bytes
  /-- the cookie of our `n`-th KEXINIT (`UrandomFill`) -/
  cookie : Nat → Bytes
  /-- `SerializeEphemeralPublicKey` of the `n`-th key exchange object -/
  ephPub : KexMethod → Nat → Bytes
  /-- `GenerateSharedSecret` of the `n`-th key exchange object; `none`: it throws -/
  shared : KexMethod → Nat → Bytes → Option Bytes
  /-- SHA-256 -/
  digest : Bytes → Bytes
  /-- `HostKeyChooser` (server role): offered algorithms and choice -/
  hostKeyAlgorithms : Bytes
  chooseHostKey : Bytes → Option (Nat × Bytes)
  /-- `SecretKey::SerializePublic` and `SecretKey::Sign` (hash, algorithm); `none`: it throws -/
  hostKeyBlob : Nat → Bytes
  sign : Nat → Bytes → Bytes → Option Bytes
  /-- `HostKeyVerifier` (client role), if there is one -/
  verifier : Option (Bytes → Bool)
  /-- `VerifyKexSignature(blob, hash, signature)`, false if it throws -/
  verify : Bytes → Bytes → Bytes → Bool

/-- `kex_flags`, Connection.hxx:140-161. -/
structure KexFlags where
  kexinitSent : Bool := false
  kexinitReceived : Bool := false
  newkeysSent : Bool := false
  newkeysReceived : Bool := false
  deriving DecidableEq, Repr

/-- `IsIdle`, Connection.hxx:146-149. -/
def KexFlags.isIdle (f : KexFlags) : Bool :=
  !f.kexinitSent && !f.kexinitReceived && !f.newkeysSent && !f.newkeysReceived

/-- `ResetIfComplete`, Connection.hxx:151-160. -/
def KexFlags.resetIfComplete (f : KexFlags) : KexFlags :=
  bif f.newkeysSent && f.newkeysReceived then {} else f

/-- `Connection`, Connection.hxx:37-161, as far as key exchange is concerned. -/
structure Kx where
  role : Role
  flags : KexFlags := {}
  /-- `input.IsEncrypted()`, `output.IsEncrypted()` -/
  inputEncrypted : Bool := false
  outputEncrypted : Bool := false
  versionExchanged : Bool := false
  peerVersion : Bytes := []
  peerKexinit : Bytes := []
  myKexinit : Bytes := []
  encC2S : Bytes := []
  encS2C : Bytes := []
  macC2S : Bytes := []
  macS2C : Bytes := []
  ks : KexState := {}
  /-- `kex_algorithm`: method and number of the object -/
  kex : Option (KexMethod × Nat) := none
  /-- number of KEXINITs sent, number of key exchange objects created -/
  cookies : Nat := 0
  kexes : Nat := 0
  hostKey : Option Nat := none
  hostKeyAlgorithm : Bytes := []
  peerWantsExtInfo : Bool := false
  peerWantsStrict : Bool := false
  /-- `input.auto_reset_seq`, `output.auto_reset_seq` -/
  inReset : Bool := false
  outReset : Bool := false
  firstPacketWasKexinit : Bool := true
  ignoreNextKexPacket : Bool := false
  authenticated : Bool := false
  writeBlocked : Bool := false
  log : List Entry := []
  deriving DecidableEq, Repr

/-- Why a connection stopped: `Disconnect` thrown (a DISCONNECT is sent),
closed silently (peer's DISCONNECT, or another exception → `CloseError`), or a
failed assertion. -/
inductive Stop
  | disconnect | closed | assertFailed
  deriving DecidableEq, Repr

/-- Result of a function which may throw: the state, and whether it threw. -/
abbrev KRes := Kx × Option Stop

/-- Sequence: run `f` unless something was thrown. -/
def KRes.andThen (r : KRes) (f : Kx → KRes) : KRes :=
  match r.2 with
  | none => f r.1
  | some _ => r

/-- Record an event. -/
def Kx.emit (s : Kx) (e : Entry) : Kx := { s with log := s.log ++ [e] }

/-- `IsEncrypted`, Connection.cxx:92-96. -/
abbrev Kx.isEncrypted (s : Kx) : Bool := s.inputEncrypted && s.outputEncrypted

/-- `IsRekeying`, Connection.cxx:98-103. -/
abbrev Kx.isRekeying (s : Kx) : Bool := s.outputEncrypted && s.flags.kexinitSent && !s.flags.newkeysSent

/-- `SendPacket`, Connection.cxx:139-173; the payload is what was serialized
after the header and padding length.  A `PacketTooLarge` while serializing is an
exception.  (Framing: Wire.lean.  Rekeying after 1 GB only schedules the timer.) -/
def Kx.sendSer (s : Kx) (p : Except SerError Ser) : KRes :=
  match p with
  | .ok ser => (s.emit (.sent (ser.since 5)), none)
  | .error _ => (s, some .closed)

/-- The proposal of `SendKexInit`, Connection.cxx:266-277; a client has no
`host_key_chooser`. -/
def KexEnv.proposal (e : KexEnv) (role : Role) : KexProposal where
  kex := if role = .server then allServerKexAlgorithms else allClientKexAlgorithms
  hostKey := if role = .server then e.hostKeyAlgorithms else allPublicKeyAlgorithms
  encC2S := allEncryptionAlgorithms
  encS2C := allEncryptionAlgorithms
  macC2S := allMacAlgorithms
  macS2C := allMacAlgorithms
  compC2S := ascii "none"
  compS2C := ascii "none"
  langC2S := []
  langS2C := []

/-- `SendKexInit`, Connection.cxx:257-292.  `my_kexinit` is what was serialized
after the message number. -/
def Kx.sendKexInit (e : KexEnv) (s : Kx) : KRes :=
  bif s.flags.kexinitSent || s.flags.newkeysSent || s.flags.newkeysReceived then (s, some .assertFailed)
  else
    match makeKexInit (e.cookie s.cookies) (e.proposal s.role) with
    | .error _ => (s, some .closed)
    | .ok ser =>
      let s := { s with
        myKexinit := ser.since 6
        cookies := s.cookies + 1
        flags := { s.flags with kexinitSent := true } }
      let s := bif s.isRekeying && !s.writeBlocked then s.emit .blocked else s
      (s.emit (.sent (ser.since 5)), none)

/-- `if (!kex_flags.kexinit_sent) SendKexInit();`, Connection.cxx:524-525, 534-535. -/
def Kx.ensureKexInit (e : KexEnv) (s : Kx) : KRes :=
  bif s.flags.kexinitSent then (s, none) else s.sendKexInit e

/-- `SendECDHKexInit`, Connection.cxx:294-311. -/
def Kx.sendECDHKexInit (e : KexEnv) (s : Kx) : KRes :=
  match s.kex with
  | none => (s, some .assertFailed)
  | some (m, n) =>
    bif s.role != .client || !s.flags.kexinitSent || !s.flags.kexinitReceived || s.flags.newkeysSent ||
        s.flags.newkeysReceived then (s, some .assertFailed)
    else s.sendSer (makeECDHKexInit (e.ephPub m n))

/-- The end of `SendECDHKexInitReply` and of `HandleECDHKexInitReply`,
Connection.cxx:370-372, 698-700. -/
def Kx.deriveKeys (e : KexEnv) (s : Kx) (t : Transcript) (hash : Bytes) : KRes :=
  match s.ks.deriveKeys e.digest hash t.secret s.role (s.ks.sessionId == []) with
  | none => (s, some .closed)
  | some ks => ({ s with ks := ks, kex := none }.emit (.agreed t), none)

/-- `SendECDHKexInitReply`, Connection.cxx:313-373. -/
def Kx.sendECDHKexInitReply (e : KexEnv) (s : Kx) (clientEph : Bytes) : KRes :=
  match s.kex, s.hostKey with
  | none, _ => (s, some .assertFailed)
  | _, none => (s, some .assertFailed)
  | some (m, n), some hk =>
    bif s.role != .server || !s.flags.kexinitSent || !s.flags.kexinitReceived || s.flags.newkeysSent ||
        s.flags.newkeysReceived then (s, some .assertFailed)
    else
      let blob := e.hostKeyBlob hk
      let eph := e.ephPub m n
      match e.shared m n clientEph with
      | none => (s, some .closed)
      | some secret =>
        let hash := e.digest (kexHashInput s.peerVersion e.ownVersion s.peerKexinit s.myKexinit blob clientEph eph secret)
        match e.sign hk hash s.hostKeyAlgorithm with
        | none => (s, some .closed)
        | some sig =>
          (s.sendSer (makeECDHKexInitReply blob eph sig)).andThen fun s =>
          s.deriveKeys e
            { clientVersion := s.peerVersion, serverVersion := e.ownVersion, clientKexinit := s.peerKexinit,
              serverKexinit := s.myKexinit, hostKey := blob, clientEph := clientEph, serverEph := eph,
              secret := secret } hash

/-- `SendNewKeys`, Connection.cxx:375-423. -/
def Kx.sendNewKeys (s : Kx) : KRes :=
  bif !s.flags.kexinitSent || !s.flags.kexinitReceived || s.flags.newkeysSent || s.flags.newkeysReceived then
    (s, some .assertFailed)
  else
    let wasRekeying := s.isRekeying
    let s := s.emit (.sent [MSG_NEWKEYS])
    let s := { s with flags := { s.flags with newkeysSent := true } }
    let enc := findNegotiatedAlgorithm s.role .outgoing allEncryptionAlgorithms s.encC2S s.encS2C
    let mac := findNegotiatedAlgorithm s.role .outgoing allMacAlgorithms s.macC2S s.macS2C
    match makeCipher enc mac with
    | none => (s, some .disconnect)
    | some _ =>
      let wasEncrypted := s.outputEncrypted
      let s := { s with outputEncrypted := true }.emit (.installOut enc mac s.ks.newKeysOut)
      let s := { s with flags := s.flags.resetIfComplete }
      let s := bif !wasEncrypted && s.isEncrypted then s.emit .encrypted else s
      let s := bif wasRekeying && !s.writeBlocked then s.emit .unblocked else s
      (s, none)

/-- `SendExtInfo`, Connection.cxx:425-444. -/
def makeExtInfo : Except SerError Ser := do
  let s := PacketSer.begin MSG_EXT_INFO
  let s ← s.writeU32 2
  let s ← s.writeString (ascii "server-sig-algs")
  let s ← s.writeString allPublicKeyAlgorithms
  let s ← s.writeString (ascii "agent-forward")
  s.writeString (ascii "0")

/-- `HandleKexInit`, Connection.cxx:456-540, the part after negotiation. -/
def Kx.handleKexInit₂ (e : KexEnv) (s : Kx) (p : PKexInit) (negotiated : Bytes) : KRes :=
  bif s.peerWantsStrict && !s.firstPacketWasKexinit then (s, some .disconnect)
  else match s.role with
    | .server =>
      match e.chooseHostKey p.hostKey with
      | none => ({ s with hostKey := none }, some .disconnect)
      | some (hk, alg) =>
        let s := { s with hostKey := some hk, hostKeyAlgorithm := alg }
        (s.ensureKexInit e).andThen fun s =>
        ({ s with ignoreNextKexPacket := p.firstKexPacketFollows &&
            (firstStringListItem p.kex != negotiated || firstStringListItem p.hostKey != alg) }, none)
    | .client =>
      (s.ensureKexInit e).andThen fun s => s.sendECDHKexInit e

/-- `HandleKexInit`, Connection.cxx:456-540.  (`AutoResetSeq`, lines 509-510, comes before the
check of lines 503-507 here; if that fails, there are no further packets.  Its effect is modelled in
Input.lean and Output.lean.) -/
def Kx.handleKexInit (e : KexEnv) (s : Kx) (payload : Bytes) : KRes :=
  let initial := !s.isEncrypted
  bif s.flags.kexinitReceived || s.flags.newkeysSent || s.flags.newkeysReceived then (s, some .disconnect)
  else
    match parseKexInit.parse payload with
    | none => (s, some .disconnect)
    | some p =>
      let s := { s with
        flags := { s.flags with kexinitReceived := true }
        peerKexinit := payload
        encC2S := p.encC2S, encS2C := p.encS2C, macC2S := p.macC2S, macS2C := p.macS2C }
      let negotiated :=
        if s.role = .server then findCommonAlgorithm p.kex allServerKexAlgorithms
        else findCommonAlgorithm allClientKexAlgorithms p.kex
      match makeKex negotiated with
      | none => ({ s with kex := none }, some .disconnect)
      | some m =>
        let strict := bif initial then stringListContains p.kex
            (if s.role = Role.server then ascii "kex-strict-c-v00@openssh.com"
             else ascii "kex-strict-s-v00@openssh.com")
          else s.peerWantsStrict
        let s := { s with
          kex := some (m, s.kexes)
          kexes := s.kexes + 1
          peerWantsExtInfo := stringListContains p.kex
            (if s.role = Role.server then ascii "ext-info-c" else ascii "ext-info-s")
          peerWantsStrict := strict
          inReset := s.inReset || strict
          outReset := s.outReset || strict }
        s.handleKexInit₂ e p negotiated

/-- `HandleNewKeys`, Connection.cxx:542-595. -/
def Kx.handleNewKeys (s : Kx) : KRes :=
  bif !s.flags.kexinitSent || !s.flags.kexinitReceived || !s.flags.newkeysSent || s.flags.newkeysReceived then
    (s, some .disconnect)
  else
    let s := { s with flags := { s.flags with newkeysReceived := true } }
    bif s.ks.sessionId == [] then (s, some .disconnect)
    else
      let enc := findNegotiatedAlgorithm s.role .incoming allEncryptionAlgorithms s.encC2S s.encS2C
      let mac := findNegotiatedAlgorithm s.role .incoming allMacAlgorithms s.macC2S s.macS2C
      match makeCipher enc mac with
      | none => (s, some .disconnect)
      | some _ =>
        let wasEncrypted := s.inputEncrypted
        let s := { s with inputEncrypted := true }.emit (.installIn enc mac s.ks.newKeysIn)
        let s := { s with flags := s.flags.resetIfComplete }
        let s := bif !wasEncrypted && s.isEncrypted then s.emit .encrypted else s
        (s, none)

/-- The guard of `HandleECDHKexInit` and `HandleECDHKexInitReply`,
Connection.cxx:606-614, 634-642. -/
def Kx.kexReady (s : Kx) : Bool :=
  s.flags.kexinitSent && s.flags.kexinitReceived && !s.flags.newkeysSent && !s.flags.newkeysReceived && s.kex.isSome

/-- `HandleECDHKexInit`, Connection.cxx:597-623. -/
def Kx.handleECDHKexInit (e : KexEnv) (s : Kx) (payload : Bytes) : KRes :=
  bif s.role != .server then (s, some .disconnect)
  else bif !s.kexReady then (s, some .disconnect)
  else match parseECDHKexInit.parse payload with
    | none => (s, some .disconnect)
    | some clientEph =>
      ((s.sendECDHKexInitReply e clientEph).andThen fun s => s.sendNewKeys).andThen fun s =>
      bif s.peerWantsExtInfo then s.sendSer makeExtInfo else (s, none)

/-- `HandleECDHKexInitReply`, Connection.cxx:625-703. -/
def Kx.handleECDHKexInitReply (e : KexEnv) (s : Kx) (payload : Bytes) : KRes :=
  bif s.role != .client then (s, some .disconnect)
  else bif !s.kexReady then (s, some .disconnect)
  else match parseECDHKexInitReply.parse payload, e.verifier, s.kex with
    | none, _, _ => (s, some .disconnect)
    | some _, none, _ => (s, some .disconnect)
    | some _, some _, none => (s, some .assertFailed)
    | some p, some accepts, some (m, n) =>
      bif !accepts p.hostKeyBlob then (s, some .disconnect)
      else
        let clientEph := e.ephPub m n
        match e.shared m n p.eph with
        | none => (s, some .closed)
        | some secret =>
          let hash := e.digest (kexHashInput e.ownVersion s.peerVersion s.myKexinit s.peerKexinit p.hostKeyBlob
            clientEph p.eph secret)
          bif !e.verify p.hostKeyBlob hash p.signature then (s, some .disconnect)
          else
            (s.deriveKeys e
              { clientVersion := e.ownVersion, serverVersion := s.peerVersion, clientKexinit := s.myKexinit,
                serverKexinit := s.peerKexinit, hostKey := p.hostKeyBlob, clientEph := clientEph,
                serverEph := p.eph, secret := secret } hash).andThen fun s => s.sendNewKeys

/-- `IsAllowedKexMessage`, Connection.cxx:705-722. -/
def isAllowedKexMessage (msg : UInt8) (role : Role) : Bool :=
  if msg = MSG_DISCONNECT ∨ msg = MSG_NEWKEYS then true
  else if msg = MSG_ECDH_KEX_INIT then role == .server
  else if msg = MSG_ECDH_KEX_INIT_REPLY then role == .client
  else false

/-- `IsKex`, Protocol.hxx:106-111. -/
def isKex (msg : UInt8) : Bool := decide (30 ≤ msg) && decide (msg < 50)

/-- What the registered handlers (`handlers`, Connection.cxx:748-750) do with a
packet: nobody wants it, one takes it, or one throws `Disconnect`. -/
inductive Claim
  | unclaimed | claimed | refused
  deriving DecidableEq, Repr

/-- `input.GetSeq()`, Input.hxx:116-122, while a packet is handled.  (The counter is in Input.lean; here it
is computed from the packets that were received.  `C91_named` shows that both agree.) -/
def Kx.seqNo (s : Kx) : Nat := Spec.packetNumber s.inReset (Spec.received s.log).dropLast

/-- The `switch` of `HandlePacket`, Connection.cxx:752-781. -/
def Kx.dispatch (e : KexEnv) (s : Kx) (msg : UInt8) (payload : Bytes) : KRes :=
  if msg = MSG_DISCONNECT then
    match parseDisconnect.parse payload with
    | none => (s, some .disconnect)
    | some _ => (s, some .closed)
  else if msg = MSG_IGNORE then (s, none)
  else if msg = MSG_UNIMPLEMENTED then (s, none)
  else if msg = MSG_KEXINIT then s.handleKexInit e payload
  else if msg = MSG_NEWKEYS then s.handleNewKeys
  else if msg = MSG_ECDH_KEX_INIT then s.handleECDHKexInit e payload
  else if msg = MSG_ECDH_KEX_INIT_REPLY then s.handleECDHKexInitReply e payload
  else s.sendSer (makeUnimplemented s.seqNo)

/-- The rest of `HandlePacket` after the checks, Connection.cxx:748-781. -/
def Kx.handlePacket₂ (e : KexEnv) (s : Kx) (msg : UInt8) (payload : Bytes) (claim : Claim) : KRes :=
  match claim with
  | .claimed => (s, none)
  | .refused => (s, some .disconnect)
  | .unclaimed => s.dispatch e msg payload

/-- `HandlePacket`, Connection.cxx:724-782. -/
def Kx.handlePacket (e : KexEnv) (s : Kx) (msg : UInt8) (payload : Bytes) (claim : Claim) : KRes :=
  bif s.inputEncrypted then s.handlePacket₂ e msg payload claim
  else bif !s.flags.kexinitReceived then
    { s with firstPacketWasKexinit := s.firstPacketWasKexinit && msg == MSG_KEXINIT }.handlePacket₂ e msg payload claim
  else bif s.ignoreNextKexPacket then
    let s := { s with ignoreNextKexPacket := false }
    bif isKex msg then (s, none) else s.handlePacket₂ e msg payload claim
  else bif s.peerWantsStrict && !isAllowedKexMessage msg s.role then (s, some .disconnect)
  else s.handlePacket₂ e msg payload claim

/-- `HandleRawPacket`, Connection.cxx:784-800: an empty packet is a
`SocketProtocolError`. -/
def Kx.handleRawPacket (e : KexEnv) (s : Kx) (raw : Bytes) (claim : Claim) : KRes :=
  let s := s.emit (.recv raw)
  match raw with
  | [] => (s, some .closed)
  | msg :: payload => s.handlePacket e msg payload claim

/-- `InitiateRekey`, Connection.cxx:118-129. -/
def Kx.initiateRekey (e : KexEnv) (s : Kx) : KRes :=
  bif !s.isEncrypted || !s.authenticated then (s, some .assertFailed)
  else bif !s.flags.isIdle then (s, none)
  else s.sendKexInit e

/-- `SetAuthenticated`, Connection.cxx:105-116. -/
def Kx.setAuthenticated (s : Kx) : KRes :=
  bif !s.isEncrypted || s.authenticated then (s, some .assertFailed)
  else ({ s with authenticated := true }, none)

/-- `OnBufferedWrite`, Connection.cxx:868-899; `more` says whether
`Output::Flush` returned `MORE`. -/
def Kx.onBufferedWrite (s : Kx) (more : Bool) : Kx :=
  let was := s.writeBlocked
  let s := { s with writeBlocked := false }
  let s := bif was && !s.isRekeying then s.emit .unblocked else s
  bif more then
    let s := { s with writeBlocked := true }
    bif !s.isRekeying then s.emit .blocked else s
  else s

/-- Version exchange, Connection.cxx:851-856 (the line itself is modelled in
Version.lean). -/
def Kx.onVersion (e : KexEnv) (s : Kx) (v : Bytes) : KRes :=
  let s := { s with peerVersion := v, versionExchanged := true }.emit (.version v)
  bif s.role == .client then s.sendKexInit e else (s, none)

/-- Things that happen to a connection. -/
inductive KxEvent
  /-- the peer's identification line -/
  | version (v : Bytes)
  /-- a packet, and what the registered handlers do with it -/
  | packet (raw : Bytes) (claim : Claim)
  /-- the application calls `SetAuthenticated` -/
  | authenticated
  /-- the rekey timer fires -/
  | rekeyTimer
  /-- the socket is writable; did everything fit? -/
  | writable (more : Bool)
  deriving DecidableEq, Repr

/-- A connection with what ended it.  On `Disconnect`, `DoDisconnect` sends a
DISCONNECT packet (Connection.cxx:183-227; its contents are omitted here). -/
structure KxSys where
  kx : Kx
  stop : Option Stop := none
  deriving DecidableEq, Repr

def KxSys.finish (r : KRes) : KxSys :=
  match r.2 with
  | none => ⟨r.1, none⟩
  | some .disconnect => ⟨r.1.emit (.sent [MSG_DISCONNECT]), some .disconnect⟩
  | some x => ⟨r.1, some x⟩

/-- One event.  Nothing happens to a connection after it was stopped.  Events
which cannot occur are skipped: packets before the version exchange, a second
identification line, a second authentication or one without encryption, the rekey timer on a
connection that is not authenticated (see DESIGN.md). -/
def KxSys.step (e : KexEnv) (y : KxSys) (ev : KxEvent) : KxSys :=
  match y.stop with
  | some _ => y
  | none =>
    match ev with
    | .version v => bif y.kx.versionExchanged then y else .finish (y.kx.onVersion e v)
    | .packet raw claim => bif y.kx.versionExchanged then .finish (y.kx.handleRawPacket e raw claim) else y
    | .authenticated => bif y.kx.isEncrypted && !y.kx.authenticated then .finish y.kx.setAuthenticated else y
    | .rekeyTimer => bif y.kx.authenticated then .finish (y.kx.initiateRekey e) else y
    | .writable more => ⟨y.kx.onBufferedWrite more, none⟩

def KxSys.run (e : KexEnv) (y : KxSys) (evs : List KxEvent) : KxSys := evs.foldl (KxSys.step e) y

/-- A new connection. -/
def KxSys.init (role : Role) : KxSys := ⟨{ role := role }, none⟩

end Lukko.Model
