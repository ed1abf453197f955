import Verif.Model.Wire
/-
  Model of the message builders and parsers:
    /repo/src/ssh/MakePacket.hxx, ParsePacket.hxx, KexProposal.cxx,
    parts of Channel.cxx, CSupport.cxx, Connection.cxx
-/
namespace Lukko.Model

/-! ## Message numbers: src/ssh/Protocol.hxx:65-104 -/

abbrev MSG_DISCONNECT : UInt8 := 1
abbrev MSG_IGNORE : UInt8 := 2
abbrev MSG_UNIMPLEMENTED : UInt8 := 3
abbrev MSG_DEBUG : UInt8 := 4
abbrev MSG_SERVICE_REQUEST : UInt8 := 5
abbrev MSG_SERVICE_ACCEPT : UInt8 := 6
abbrev MSG_EXT_INFO : UInt8 := 7
abbrev MSG_NEWCOMPRESS : UInt8 := 8
abbrev MSG_KEXINIT : UInt8 := 20
abbrev MSG_NEWKEYS : UInt8 := 21
abbrev MSG_ECDH_KEX_INIT : UInt8 := 30
abbrev MSG_ECDH_KEX_INIT_REPLY : UInt8 := 31
abbrev MSG_USERAUTH_REQUEST : UInt8 := 50
abbrev MSG_USERAUTH_FAILURE : UInt8 := 51
abbrev MSG_USERAUTH_SUCCESS : UInt8 := 52
abbrev MSG_USERAUTH_BANNER : UInt8 := 53
abbrev MSG_USERAUTH_PK_OK : UInt8 := 60
abbrev MSG_USERAUTH_INFO_RESPONSE : UInt8 := 61
abbrev MSG_GLOBAL_REQUEST : UInt8 := 80
abbrev MSG_REQUEST_SUCCESS : UInt8 := 81
abbrev MSG_REQUEST_FAILURE : UInt8 := 82
abbrev MSG_CHANNEL_OPEN : UInt8 := 90
abbrev MSG_CHANNEL_OPEN_CONFIRMATION : UInt8 := 91
abbrev MSG_CHANNEL_OPEN_FAILURE : UInt8 := 92
abbrev MSG_CHANNEL_WINDOW_ADJUST : UInt8 := 93
abbrev MSG_CHANNEL_DATA : UInt8 := 94
abbrev MSG_CHANNEL_EXTENDED_DATA : UInt8 := 95
abbrev MSG_CHANNEL_EOF : UInt8 := 96
abbrev MSG_CHANNEL_CLOSE : UInt8 := 97
abbrev MSG_CHANNEL_REQUEST : UInt8 := 98
abbrev MSG_CHANNEL_SUCCESS : UInt8 := 99
abbrev MSG_CHANNEL_FAILURE : UInt8 := 100

/-- An exception leaving a `noexcept` function. -/
def noexcept {α} : Except SerError α → Except SerError α
  | .error .packetTooLarge => .error .terminate
  | r => r

/-- The idiom `at = s.PrepareLength(); …; s.CommitLength(at)`. -/
def Ser.withLength (w : Ser → Except SerError Ser) (s : Ser) : Except SerError Ser := do
  let (pos, s) ← s.prepareLength
  let s ← w s
  pure (s.commitLength pos)

/-! ## Builders -/

/-- MakePacket.hxx:15-22 -/
def makeDisconnect (reason : Nat) (msg : Bytes) : Except SerError Ser := noexcept do
  let s := PacketSer.begin MSG_DISCONNECT
  let s ← s.writeU32 reason
  let s ← s.writeString msg
  s.writeString (ascii "en")

/-- MakePacket.hxx:26-31 -/
def makeUnimplemented (seq : Nat) : Except SerError Ser := noexcept do
  let s := PacketSer.begin MSG_UNIMPLEMENTED
  s.writeU32 seq

/-- MakePacket.hxx:35-40 -/
def makeServiceRequest (service : Bytes) : Except SerError Ser := noexcept do
  let s := PacketSer.begin MSG_SERVICE_REQUEST
  s.writeString service

/-- MakePacket.hxx:44-49 -/
def makeServiceAccept (service : Bytes) : Except SerError Ser := noexcept do
  let s := PacketSer.begin MSG_SERVICE_ACCEPT
  s.writeString service

/-- MakePacket.hxx:53-60 -/
def makeUserauthFailure (methods : Bytes) (partialSuccess : Bool) : Except SerError Ser := noexcept do
  let s := PacketSer.begin MSG_USERAUTH_FAILURE
  let s ← s.writeString methods
  s.writeBool partialSuccess

/-- MakePacket.hxx:64-70 -/
def makeUserauthBanner (msg : Bytes) : Except SerError Ser := noexcept do
  let s := PacketSer.begin MSG_USERAUTH_BANNER
  let s ← s.writeString msg
  s.writeString (ascii "en")

/-- MakePacket.hxx:74-81 -/
def makeUserauthPkOk (alg key : Bytes) : Except SerError Ser := noexcept do
  let s := PacketSer.begin MSG_USERAUTH_PK_OK
  let s ← s.writeString alg
  s.writeString key

/-- MakePacket.hxx:85-91 -/
def makeGlobalRequest (name : Bytes) (wantReply : Bool) : Except SerError Ser := noexcept do
  let s := PacketSer.begin MSG_GLOBAL_REQUEST
  let s ← s.writeString name
  s.writeBool wantReply

/-- CSupport.cxx:247-263 (the `Channel::SerializeOpenConfirmation` hook appends
nothing, Channel.cxx:171-174); same layout as MakePacket.hxx:95-106. -/
def makeChannelOpenConfirmation (recipient sender window maxPacket : Nat) :
    Except SerError Ser := noexcept do
  let s := PacketSer.begin MSG_CHANNEL_OPEN_CONFIRMATION
  let s ← s.writeU32 recipient
  let s ← s.writeU32 sender
  let s ← s.writeU32 window
  s.writeU32 maxPacket

/-- MakePacket.hxx:110-120 -/
def makeChannelOpenFailure (recipient reason : Nat) (description : Bytes) :
    Except SerError Ser := noexcept do
  let s := PacketSer.begin MSG_CHANNEL_OPEN_FAILURE
  let s ← s.writeU32 recipient
  let s ← s.writeU32 reason
  let s ← s.writeString description
  s.writeString (ascii "en")

/-- MakePacket.hxx:124-131 -/
def makeChannelWindowAdjust (recipient nbytes : Nat) : Except SerError Ser := noexcept do
  let s := PacketSer.begin MSG_CHANNEL_WINDOW_ADJUST
  let s ← s.writeU32 recipient
  s.writeU32 nbytes

/-- MakePacket.hxx:135-140 -/
def makeChannelClose (recipient : Nat) : Except SerError Ser := noexcept do
  let s := PacketSer.begin MSG_CHANNEL_CLOSE
  s.writeU32 recipient

/-- MakePacket.hxx:144-153 (`MakeChannelReqest`), followed by whatever the caller
appends (`extra`; e.g. Channel.cxx:151-169). -/
def makeChannelRequest (recipient : Nat) (type : Bytes) (wantReply : Bool) :
    Except SerError Ser := noexcept do
  let s := PacketSer.begin MSG_CHANNEL_REQUEST
  let s ← s.writeU32 recipient
  let s ← s.writeString type
  s.writeBool wantReply

/-- `Channel::SendData`, Channel.cxx:109-120 (may throw). -/
def makeChannelData (recipient : Nat) (data : Bytes) : Except SerError Ser := do
  let s := PacketSer.begin MSG_CHANNEL_DATA
  let s ← s.writeU32 recipient
  s.writeString data

/-- `Channel::SendExtendedData`, Channel.cxx:122-135 (may throw). -/
def makeChannelExtendedData (recipient type : Nat) (data : Bytes) : Except SerError Ser := do
  let s := PacketSer.begin MSG_CHANNEL_EXTENDED_DATA
  let s ← s.writeU32 recipient
  let s ← s.writeU32 type
  s.writeString data

/-- `Channel::SendEof`, Channel.cxx:143-149 (`noexcept`). -/
def makeChannelEof (recipient : Nat) : Except SerError Ser := noexcept do
  let s := PacketSer.begin MSG_CHANNEL_EOF
  s.writeU32 recipient

/-- `Channel::SendExitStatus`, Channel.cxx:151-157 (`noexcept`). -/
def makeExitStatus (recipient status : Nat) : Except SerError Ser := noexcept do
  let s ← makeChannelRequest recipient (ascii "exit-status") false
  s.writeU32 status

/-- `Channel::SendExitSignal`, Channel.cxx:159-169 (may throw). -/
def makeExitSignal (recipient : Nat) (signal : Bytes) (core : Bool) (message : Bytes) :
    Except SerError Ser := do
  let s ← makeChannelRequest recipient (ascii "exit-signal") false
  let s ← s.writeString signal
  let s ← s.writeBool core
  let s ← s.writeString message
  s.writeString (ascii "en")

/-- The reply built in `Channel::SubmitRequestResponses`, Channel.cxx:206-212
(`noexcept`). -/
def makeChannelResponse (recipient : Nat) (success : Bool) : Except SerError Ser := noexcept do
  let s := PacketSer.begin (if success then MSG_CHANNEL_SUCCESS else MSG_CHANNEL_FAILURE)
  s.writeU32 recipient

/-- The open request built in `ChannelSupport::OpenChannel`, CSupport.cxx:124-132;
`serializeOpen` are the bytes appended by the factory. -/
def makeChannelOpen (type : Bytes) (sender window maxPacket : Nat) (serializeOpen : Bytes) :
    Except SerError Ser := do
  let s := PacketSer.begin MSG_CHANNEL_OPEN
  let s ← s.writeString type
  let s ← s.writeU32 sender
  let s ← s.writeU32 window
  let s ← s.writeU32 maxPacket
  s.writeN serializeOpen

/-- `KexProposal`, KexProposal.hxx. -/
structure KexProposal where
  kex : Bytes
  hostKey : Bytes
  encC2S : Bytes
  encS2C : Bytes
  macC2S : Bytes
  macS2C : Bytes
  compC2S : Bytes
  compS2C : Bytes
  langC2S : Bytes
  langS2C : Bytes
  deriving DecidableEq, Repr

/-- `SerializeProposal`, KexProposal.cxx:10-23. -/
def serializeProposal (p : KexProposal) (s : Ser) : Except SerError Ser := do
  let s ← s.writeString p.kex
  let s ← s.writeString p.hostKey
  let s ← s.writeString p.encC2S
  let s ← s.writeString p.encS2C
  let s ← s.writeString p.macC2S
  let s ← s.writeString p.macS2C
  let s ← s.writeString p.compC2S
  let s ← s.writeString p.compS2C
  let s ← s.writeString p.langC2S
  s.writeString p.langS2C

/-- `SerializeKex` and `Connection::SendKexInit`, Connection.cxx:257-292
(packet contents only). -/
def makeKexInit (cookie : Bytes) (p : KexProposal) : Except SerError Ser := do
  let s := PacketSer.begin MSG_KEXINIT
  let s ← s.writeN cookie
  let s ← serializeProposal p s
  let s ← s.writeBool false
  s.writeU32 0

/-- `Connection::SendECDHKexInit`, Connection.cxx:294-311; `eph` are the bytes
written by `SerializeEphemeralPublicKey`. -/
def makeECDHKexInit (eph : Bytes) : Except SerError Ser := do
  let s := PacketSer.begin MSG_ECDH_KEX_INIT
  s.withLength (·.writeN eph)

/-- `Connection::SendECDHKexInitReply`, Connection.cxx:323-368 (packet contents
only); the three arguments are what the host key, the key exchange and the
signature function write. -/
def makeECDHKexInitReply (hostKeyBlob eph signature : Bytes) : Except SerError Ser := do
  let s := PacketSer.begin MSG_ECDH_KEX_INIT_REPLY
  let s ← s.withLength (·.writeN hostKeyBlob)
  let s ← s.withLength (·.writeN eph)
  s.withLength (·.writeN signature)

/-! ## Parsers (of the payload after the message number) -/

/-- ParsePacket.hxx:16-19 -/
structure PDisconnect where
  reason : Nat
  description : Bytes
  deriving DecidableEq, Repr

/-- ParsePacket.hxx:21-31 -/
def parseDisconnect : Parser PDisconnect := do
  let reason ← readU32
  let description ← readString
  let _ ← readString
  expectEnd
  pure { reason, description }

/-- ParsePacket.hxx:37-45 -/
def parseServiceRequest : Parser Bytes := do
  let service ← readString
  expectEnd
  pure service

/-- ParsePacket.hxx:51-59 -/
def parseServiceAccept : Parser Bytes := do
  let service ← readString
  expectEnd
  pure service

/-- ParsePacket.hxx:61-69 -/
structure PKexInit where
  kex : Bytes
  hostKey : Bytes
  encC2S : Bytes
  encS2C : Bytes
  macC2S : Bytes
  macS2C : Bytes
  firstKexPacketFollows : Bool
  deriving DecidableEq, Repr

/-- ParsePacket.hxx:71-91 -/
def parseKexInit : Parser PKexInit := do
  let _ ← readN 16
  let kex ← readString
  let hostKey ← readString
  let encC2S ← readString
  let encS2C ← readString
  let macC2S ← readString
  let macS2C ← readString
  let _ ← readString
  let _ ← readString
  let _ ← readString
  let _ ← readString
  let firstKexPacketFollows ← readBool
  let _ ← readU32
  expectEnd
  pure { kex, hostKey, encC2S, encS2C, macC2S, macS2C, firstKexPacketFollows }

/-- ParsePacket.hxx:97-105 -/
def parseECDHKexInit : Parser Bytes := do
  let eph ← readString
  expectEnd
  pure eph

/-- ParsePacket.hxx:107-111 -/
structure PECDHKexInitReply where
  hostKeyBlob : Bytes
  eph : Bytes
  signature : Bytes
  deriving DecidableEq, Repr

/-- ParsePacket.hxx:113-123 -/
def parseECDHKexInitReply : Parser PECDHKexInitReply := do
  let hostKeyBlob ← readString
  let eph ← readString
  let signature ← readString
  expectEnd
  pure { hostKeyBlob, eph, signature }

/-- ParsePacket.hxx:125-131 -/
structure PChannelOpen where
  type : Bytes
  peerChannel : Nat
  window : Nat
  maxPacket : Nat
  rest : Bytes
  deriving DecidableEq, Repr

/-- ParsePacket.hxx:133-144 -/
def parseChannelOpen : Parser PChannelOpen := do
  let type ← readString
  let peerChannel ← readU32
  let window ← readU32
  let maxPacket ← readU32
  let rest ← getRest
  pure { type, peerChannel, window, maxPacket, rest }

/-- ParsePacket.hxx:146-152 -/
structure PChannelOpenConfirmation where
  localChannel : Nat
  peerChannel : Nat
  window : Nat
  maxPacket : Nat
  rest : Bytes
  deriving DecidableEq, Repr

/-- ParsePacket.hxx:154-165 -/
def parseChannelOpenConfirmation : Parser PChannelOpenConfirmation := do
  let localChannel ← readU32
  let peerChannel ← readU32
  let window ← readU32
  let maxPacket ← readU32
  let rest ← getRest
  pure { localChannel, peerChannel, window, maxPacket, rest }

/-- ParsePacket.hxx:167-171 -/
structure PChannelOpenFailure where
  localChannel : Nat
  reason : Nat
  description : Bytes
  deriving DecidableEq, Repr

/-- ParsePacket.hxx:173-184 -/
def parseChannelOpenFailure : Parser PChannelOpenFailure := do
  let localChannel ← readU32
  let reason ← readU32
  let description ← readString
  let _ ← readString
  expectEnd
  pure { localChannel, reason, description }

/-- ParsePacket.hxx:186-189 -/
structure PChannelWindowAdjust where
  localChannel : Nat
  nbytes : Nat
  deriving DecidableEq, Repr

/-- ParsePacket.hxx:191-200 -/
def parseChannelWindowAdjust : Parser PChannelWindowAdjust := do
  let localChannel ← readU32
  let nbytes ← readU32
  expectEnd
  pure { localChannel, nbytes }

/-- ParsePacket.hxx:202-205 -/
structure PChannelData where
  localChannel : Nat
  data : Bytes
  deriving DecidableEq, Repr

/-- ParsePacket.hxx:207-216 -/
def parseChannelData : Parser PChannelData := do
  let localChannel ← readU32
  let data ← readString
  expectEnd
  pure { localChannel, data }

/-- ParsePacket.hxx:218-222 -/
structure PChannelExtendedData where
  localChannel : Nat
  type : Nat
  data : Bytes
  deriving DecidableEq, Repr

/-- ParsePacket.hxx:224-234 -/
def parseChannelExtendedData : Parser PChannelExtendedData := do
  let localChannel ← readU32
  let type ← readU32
  let data ← readString
  expectEnd
  pure { localChannel, type, data }

/-- ParsePacket.hxx:240-248 -/
def parseChannelEof : Parser Nat := do
  let localChannel ← readU32
  expectEnd
  pure localChannel

/-- ParsePacket.hxx:254-262 -/
def parseChannelClose : Parser Nat := do
  let localChannel ← readU32
  expectEnd
  pure localChannel

/-- ParsePacket.hxx:264-269 -/
structure PChannelRequest where
  localChannel : Nat
  type : Bytes
  wantReply : Bool
  rest : Bytes
  deriving DecidableEq, Repr

/-- ParsePacket.hxx:271-281 -/
def parseChannelRequest : Parser PChannelRequest := do
  let localChannel ← readU32
  let type ← readString
  let wantReply ← readBool
  let rest ← getRest
  pure { localChannel, type, wantReply, rest }

/-- ParsePacket.hxx:287-294 (no `ExpectEnd`) -/
def parseChannelResponse : Parser Nat := do
  let localChannel ← readU32
  pure localChannel

/-- ParsePacket.hxx:296-300 -/
structure PGlobalRequest where
  name : Bytes
  wantReply : Bool
  rest : Bytes
  deriving DecidableEq, Repr

/-- ParsePacket.hxx:302-311 -/
def parseGlobalRequest : Parser PGlobalRequest := do
  let name ← readString
  let wantReply ← readBool
  let rest ← getRest
  pure { name, wantReply, rest }

end Lukko.Model
