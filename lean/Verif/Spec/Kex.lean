import Verif.Spec.Wire
/-
  Key exchange: vocabulary of observable events, the exchange hash and key
  derivation of RFC 4253, and the order in which events may occur.  Nothing
  here refers to the model.
-/
namespace Lukko.Spec

/-! ### Exchange hash and key derivation -/

/-- Everything that goes into the exchange hash (RFC 4253 section 8, RFC 5656
section 4).  `clientKexinit` and `serverKexinit` are the messages without their
message number; `secret` is the shared secret in its `mpint` encoding. -/
structure Transcript where
  clientVersion : Bytes
  serverVersion : Bytes
  clientKexinit : Bytes
  serverKexinit : Bytes
  hostKey : Bytes
  clientEph : Bytes
  serverEph : Bytes
  secret : Bytes
  deriving DecidableEq, Repr

/-- Sizes which a length field can express. -/
structure Transcript.Encodable (t : Transcript) : Prop where
  cv : t.clientVersion.length < 2 ^ 32
  sv : t.serverVersion.length < 2 ^ 32
  ck : t.clientKexinit.length + 1 < 2 ^ 32
  sk : t.serverKexinit.length + 1 < 2 ^ 32
  hk : t.hostKey.length < 2 ^ 32
  ce : t.clientEph.length < 2 ^ 32
  se : t.serverEph.length < 2 ^ 32

/-- The bytes that are hashed. -/
def hashInput (t : Transcript) : Bytes :=
  str t.clientVersion ++ (str t.serverVersion ++ (str (20 :: t.clientKexinit) ++
    (str (20 :: t.serverKexinit) ++ (str t.hostKey ++ (str t.clientEph ++ (str t.serverEph ++ t.secret))))))

/-- RFC 4253 section 7.2: `K1 = HASH(K || H || X || session_id)`,
`K(i+1) = HASH(K || H || K1 || … || Ki)`; the first `n + 1` of these blocks. -/
def keyBlocks (digest : Bytes → Bytes) (secret hash : Bytes) (letter : UInt8) (sessionId : Bytes) : Nat → Bytes
  | 0 => digest (secret ++ hash ++ [letter] ++ sessionId)
  | n + 1 =>
    let k := keyBlocks digest secret hash letter sessionId n
    k ++ digest (secret ++ hash ++ k)

/-- The way a packet travels. -/
inductive Way
  | clientToServer | serverToClient
  deriving DecidableEq, Repr

/-- Key material for one direction. -/
structure Keys where
  iv : Bytes
  key : Bytes
  mac : Bytes
  deriving DecidableEq, Repr

/-- RFC 4253 section 7.2: letters 'A' to 'F'. -/
def ivLetter : Way → UInt8 | .clientToServer => 65 | .serverToClient => 66
def keyLetter : Way → UInt8 | .clientToServer => 67 | .serverToClient => 68
def macLetter : Way → UInt8 | .clientToServer => 69 | .serverToClient => 70

/-- The key material for one direction, `n + 1` blocks of each. -/
def keysFor (digest : Bytes → Bytes) (secret hash sessionId : Bytes) (n : Nat) (w : Way) : Keys where
  iv := keyBlocks digest secret hash (ivLetter w) sessionId n
  key := keyBlocks digest secret hash (keyLetter w) sessionId n
  mac := keyBlocks digest secret hash (macLetter w) sessionId n

/-! ### Observable events -/

/-- What happens on a connection, as far as key exchange is concerned. -/
inductive Entry
  /-- the peer's identification string was received -/
  | version (v : Bytes)
  /-- a packet (message number first) was received -/
  | recv (payload : Bytes)
  /-- a packet was submitted for sending -/
  | sent (payload : Bytes)
  /-- a shared secret was computed and keys were derived from it -/
  | agreed (t : Transcript)
  /-- from now on, sent packets are protected with these algorithms and keys -/
  | installOut (enc mac : Bytes) (keys : Keys)
  /-- from now on, received packets are expected to be protected -/
  | installIn (enc mac : Bytes) (keys : Keys)
  /-- the application was told that the connection is encrypted -/
  | encrypted
  /-- components were told to stop writing -/
  | blocked
  /-- components were told that they may write again -/
  | unblocked
  deriving DecidableEq, Repr

/-- A packet of this type. -/
def isMsg (n : UInt8) (p : Bytes) : Bool := p.head? == some n

def Entry.isSent (n : UInt8) : Entry → Bool
  | .sent p => isMsg n p
  | _ => false

def Entry.isRecv (n : UInt8) : Entry → Bool
  | .recv p => isMsg n p
  | _ => false

/-- The body of the last packet of type `n` sent. -/
def lastSent (n : UInt8) (log : List Entry) : Option Bytes :=
  log.reverse.findSome? fun | .sent p => if isMsg n p then some p.tail else none | _ => none

/-- The body of the last packet of type `n` received. -/
def lastRecv (n : UInt8) (log : List Entry) : Option Bytes :=
  log.reverse.findSome? fun | .recv p => if isMsg n p then some p.tail else none | _ => none

/-- All packets received. -/
def received (log : List Entry) : List Bytes := log.filterMap fun | .recv p => some p | _ => none

/-- The sequence number (RFC 4253 section 6.4) of the packet that comes after these; `reset`: the number
restarts after NEWKEYS (strict key exchange). -/
def packetNumber (reset : Bool) (packets : List Bytes) : Nat :=
  packets.foldl (fun n p => bif reset && isMsg 21 p then 0 else n + 1) 0

/-- The peer's identification string. -/
def peerVersion (log : List Entry) : Option Bytes :=
  log.reverse.findSome? fun | .version v => some v | _ => none

/-- The first key agreement. -/
def firstAgreed (log : List Entry) : Option Transcript :=
  log.findSome? fun | .agreed t => some t | _ => none

/-- The most recent key agreement. -/
def lastAgreed (log : List Entry) : Option Transcript :=
  log.reverse.findSome? fun | .agreed t => some t | _ => none

/-- RFC 4253 section 7.2: the session identifier is the exchange hash of the
first key exchange. -/
def sessionIdOf (digest : Bytes → Bytes) (log : List Entry) : Bytes :=
  match firstAgreed log with
  | none => []
  | some t => digest (hashInput t)

/-! ### The order of events -/

/-- How far the current key exchange is. -/
structure Phase where
  /-- our KEXINIT was sent -/
  kexSent : Bool := false
  /-- the peer's KEXINIT was received -/
  kexRecv : Bool := false
  /-- the shared secret was computed -/
  secret : Bool := false
  /-- our NEWKEYS was sent -/
  newSent : Bool := false
  /-- the outgoing cipher was installed -/
  outSet : Bool := false
  /-- the peer's NEWKEYS was received -/
  newRecv : Bool := false
  /-- the peer sent something it must not send now, or could not be served; only
  a DISCONNECT may follow -/
  refused : Bool := false
  deriving DecidableEq, Repr

/-- May the peer send a packet with this message number now?  (Packets other
than those of the key exchange are always allowed here.) -/
def Phase.allowed (φ : Phase) (server : Bool) (msg : UInt8) : Bool :=
  if msg = 20 then !φ.kexRecv && !φ.newSent
  else if msg = 21 then φ.newSent && φ.outSet && !φ.newRecv
  else if msg = 30 then server && φ.kexSent && φ.kexRecv && !φ.secret && !φ.newSent
  else if msg = 31 then !server && φ.kexSent && φ.kexRecv && !φ.secret && !φ.newSent
  else true

/-- The phase after an event; `none` if the event must not happen in this phase.
After a refused packet only DISCONNECT may be sent.  Between our NEWKEYS and the
new outgoing cipher, and between the peer's NEWKEYS and the new incoming cipher,
nothing may happen (but a DISCONNECT).  Installing the incoming cipher completes
the exchange. -/
def Phase.next (φ : Phase) : Entry → Option Phase
  | .sent p =>
    if isMsg 1 p then some { φ with refused := true }
    else if φ.refused then none
    else if φ.newSent && !φ.outSet || φ.newRecv then none
    else if isMsg 20 p then
      if !φ.kexSent && !φ.newSent then some { φ with kexSent := true } else none
    else if isMsg 21 p then
      if φ.kexSent && φ.kexRecv && φ.secret && !φ.newSent then some { φ with newSent := true } else none
    else some φ
  | .recv p =>
    if φ.refused || (φ.newSent && !φ.outSet) || φ.newRecv then none
    else if isMsg 20 p then
      if !φ.kexRecv && !φ.newSent then some { φ with kexRecv := true } else some { φ with refused := true }
    else if isMsg 21 p then
      if φ.newSent && φ.outSet then some { φ with newRecv := true } else some { φ with refused := true }
    else some φ
  | .agreed _ =>
    if φ.kexSent && φ.kexRecv && !φ.secret && !φ.newSent && !φ.refused then some { φ with secret := true } else none
  | .installOut .. =>
    if φ.newSent && !φ.outSet && !φ.refused then some { φ with outSet := true } else none
  | .installIn .. =>
    if φ.kexSent && φ.kexRecv && φ.secret && φ.newSent && φ.outSet && φ.newRecv && !φ.refused then some {} else none
  | _ => some φ

/-- The phase after a history. -/
def phaseOf (log : List Entry) : Option Phase :=
  log.foldlM Phase.next {}

/-- What components were told last: `true` for "blocked".  `none` if the
notifications do not alternate. -/
def toldBlocked (log : List Entry) : Option Bool :=
  log.foldlM (fun told e => match e with
    | .blocked => if told then none else some true
    | .unblocked => if told then some false else none
    | _ => some told) false

/-- Was an outgoing (incoming) cipher installed? -/
def hasOut (log : List Entry) : Bool := log.any fun | .installOut .. => true | _ => false
def hasIn (log : List Entry) : Bool := log.any fun | .installIn .. => true | _ => false

/-- Is a later (not the first) key exchange in progress, in the sense that our
KEXINIT was sent and our NEWKEYS not yet? -/
def rekeying (log : List Entry) : Bool :=
  match phaseOf log with
  | some φ => hasOut log && φ.kexSent && !φ.newSent
  | none => false

/-- Strict key exchange (OpenSSH PROTOCOL 1.10): during the first exchange, after
KEXINIT, only these messages may be received: DISCONNECT, NEWKEYS and the packet
of the key exchange method that is expected from the peer. -/
def strictAllowed (server : Bool) (msg : UInt8) : Bool :=
  msg == 1 || msg == 21 || (if server then msg == 30 else msg == 31)

end Lukko.Spec
