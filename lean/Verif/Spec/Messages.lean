import Verif.Spec.Wire
/-
  Layout of SSH messages as printed in RFC 4250, 4252, 4253, 4254 and
  RFC 5656 (the part after the message number).  Nothing here refers to the
  model.
-/
namespace Lukko.Spec

/-- RFC 4253 section 11.1: uint32 reason, string description, string language. -/
def disconnectBody (reason : Nat) (description lang : Bytes) : Bytes :=
  u32 reason ++ (str description ++ str lang)

/-- RFC 4253 section 10. -/
def serviceBody (service : Bytes) : Bytes := str service

/-- RFC 4253 section 7.1: 16 bytes of cookie, ten name lists, boolean,
reserved uint32. -/
def kexInitBody (cookie : Bytes) (lists : List Bytes) (follows : Bool) : Bytes :=
  cookie ++ ((lists.map str).flatten ++ (bool follows ++ u32 0))

/-- RFC 5656 section 4. -/
def ecdhInitBody (eph : Bytes) : Bytes := str eph

/-- RFC 5656 section 4. -/
def ecdhReplyBody (hostKey eph signature : Bytes) : Bytes :=
  str hostKey ++ (str eph ++ str signature)

/-- RFC 4254 section 5.1. -/
def channelOpenBody (type : Bytes) (sender window maxPacket : Nat) (rest : Bytes) : Bytes :=
  str type ++ (u32 sender ++ (u32 window ++ (u32 maxPacket ++ rest)))

/-- RFC 4254 section 5.1. -/
def channelOpenConfirmationBody (recipient sender window maxPacket : Nat) (rest : Bytes) : Bytes :=
  u32 recipient ++ (u32 sender ++ (u32 window ++ (u32 maxPacket ++ rest)))

/-- RFC 4254 section 5.1. -/
def channelOpenFailureBody (recipient reason : Nat) (description lang : Bytes) : Bytes :=
  u32 recipient ++ (u32 reason ++ (str description ++ str lang))

/-- RFC 4254 section 5.2. -/
def windowAdjustBody (recipient nbytes : Nat) : Bytes := u32 recipient ++ u32 nbytes

/-- RFC 4254 section 5.2. -/
def channelDataBody (recipient : Nat) (data : Bytes) : Bytes := u32 recipient ++ str data

/-- RFC 4254 section 5.2. -/
def channelExtendedDataBody (recipient type : Nat) (data : Bytes) : Bytes :=
  u32 recipient ++ (u32 type ++ str data)

/-- RFC 4254 sections 5.3, 5.4: only the recipient channel. -/
def channelBody (recipient : Nat) : Bytes := u32 recipient

/-- RFC 4254 section 5.4. -/
def channelRequestBody (recipient : Nat) (type : Bytes) (wantReply : Bool) (rest : Bytes) : Bytes :=
  u32 recipient ++ (str type ++ (bool wantReply ++ rest))

/-- RFC 4254 section 4. -/
def globalRequestBody (name : Bytes) (wantReply : Bool) (rest : Bytes) : Bytes :=
  str name ++ (bool wantReply ++ rest)

/-- RFC 4254 section 6.10. -/
def exitStatusBody (recipient status : Nat) : Bytes :=
  channelRequestBody recipient (ascii "exit-status") false (u32 status)

/-- RFC 4254 section 6.10. -/
def exitSignalBody (recipient : Nat) (signal : Bytes) (core : Bool) (message lang : Bytes) : Bytes :=
  channelRequestBody recipient (ascii "exit-signal") false
    (str signal ++ (bool core ++ (str message ++ str lang)))

end Lukko.Spec
